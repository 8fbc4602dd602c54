import Verif.Lemmas.Adds13
/-!
# What both sides of the DTLS 1.3 agreement (C63) and of exported keying material (C64) share
-/
namespace Verif.Props.Agree13
open Verif Wire Window Timer Aead M E13
open Verif.E12 (Call Event Output eventOutput outputs)

/-! ## Keying material -/

/-- `km` and `p` are what the suite, SRTP profile and exporter secret of the session give. -/
def KmOf {St : Type} (env : PEnv) (s : Ses St) (km : Bytes) (p : Nat) : Prop :=
  ∃ cs ex, s.eng.suite = some cs ∧ s.srtp = some p ∧ s.eng.exporter = some ex ∧ env.srtpKeys cs p ex = some km

/-- The event an output reports, where it is Connected or keying material. -/
def tells : Output → Option Event
  | .connected => some .connected
  | .keyingMaterial km p => some (.keyingMaterial km p)
  | _ => none

/-- Connected and keying material, reported and still waiting to be, in order. -/
def story {St : Type} (os : List Output) (s : Ses St) : List Event := os.filterMap tells ++ toTell s

/-- Connected and then the keying material, if there is any. -/
def Announced {St : Type} (env : PEnv) (s : Ses St) (l : List Event) : Prop :=
  l = [.connected] ∧ (∀ km p, ¬ KmOf env s km p) ∨
  ∃ km p, l = [.connected, .keyingMaterial km p] ∧ KmOf env s km p

/-! ## Finished -/

/-- The traffic secret of the server's or of the client's Finished. -/
def secretOf {St : Type} (server : Bool) (s : Ses St) : Option Bytes := if server then s.serverHs else s.clientHs

/-- The exporter secret is derived from this transcript. -/
def Keyed {St : Type} (env : PEnv) (s : Ses St) (t : Bytes) : Prop :=
  ∃ cs hs c sv ex, s.eng.suite = some cs ∧ s.hsSecret = some hs ∧ env.deriveApp cs hs t = some (c, sv, ex) ∧
    s.eng.exporter = some ex

/-- The session sent a Finished (the server's if `server`) with verify_data `v`, after messages that say its
parameters. Where it is the server's, the exporter secret is derived from the messages up to it. -/
def Said {St : Type} (Params : Ses St → List TMsg → Prop) (env : PEnv) (server : Bool) (s : Ses St) (v : Bytes) : Prop :=
  ∃ ms cs x, Params s ms ∧ s.eng.suite = some cs ∧ secretOf server s = some x ∧
    env.verifyData cs x (flat ms) = some v ∧ flat (ms ++ [⟨20, v⟩]) <+: s.eng.transcript ∧
    (server = true → Keyed env s (flat (ms ++ [⟨20, v⟩])))

/-- The session accepted a Finished (the server's if `server`) with verify_data `v`, after messages that say
its parameters. Where it is the server's, the exporter secret is derived from the messages up to it. -/
def Took {St : Type} (Params : Ses St → List TMsg → Prop) (env : PEnv) (server : Bool) (s : Ses St) (v : Bytes) : Prop :=
  ∃ ms cs x body, Params s ms ∧ s.eng.suite = some cs ∧ secretOf server s = some x ∧
    env.parseFinished cs body = some ([], v) ∧
    env.verifyData cs x (flat ms) = some v ∧ flat (ms ++ [⟨20, body⟩]) <+: s.eng.transcript ∧
    (server = true → Keyed env s (flat (ms ++ [⟨20, body⟩])))

/-! ## Preservation -/

/-- Neither ServerHello nor EncryptedExtensions. -/
def Late (t : UInt8) : Prop := t ≠ 2 ∧ t ≠ 8
instance : DecidablePred Late := fun t => inferInstanceAs (Decidable (t ≠ 2 ∧ t ≠ 8))

/-- Other than EncryptedExtensions. -/
def NotExts (t : UInt8) : Prop := t ≠ 8
instance : DecidablePred NotExts := fun t => inferInstanceAs (Decidable (t ≠ 8))

/-- Any type. -/
def Any (_ : UInt8) : Prop := True
instance : DecidablePred Any := fun _ => inferInstanceAs (Decidable True)

section
variable {St : Type} {env : PEnv} {s s' : Ses St} {T : UInt8 → Prop}

theorem KmOf.onward {km : Bytes} {p : Nat} (h : Onward True T s s') : KmOf env s km p ↔ KmOf env s' km p := by
  unfold KmOf
  rw [h.srtp, h.eng.suite, h.eng.exporter trivial]

theorem Announced.onward {l : List Event} (h : Onward True T s s') (g : Announced env s l) : Announced env s' l := by
  rcases g with ⟨h1, h2⟩ | ⟨km, p, h1, h2⟩
  · exact .inl ⟨h1, fun km p g => h2 km p ((KmOf.onward h).mpr g)⟩
  · exact .inr ⟨km, p, h1, (KmOf.onward h).mp h2⟩

theorem secretOf_onward {X : Prop} (h : Onward X T s s') (b : Bool) : secretOf b s' = secretOf b s := by
  unfold secretOf; rw [h.serverHs, h.clientHs]

theorem Keyed.onward {t : Bytes} (h : Onward True T s s') (g : Keyed env s t) : Keyed env s' t := by
  unfold Keyed at g ⊢
  rw [h.hsSecret, h.eng.suite, h.eng.exporter trivial]
  exact g

theorem prefix_onward {X : Prop} {t : Bytes} (h : Onward X T s s') (g : t <+: s.eng.transcript) : t <+: s'.eng.transcript := by
  obtain ⟨ms, h1, _⟩ := h.eng.adds
  rw [h1]
  exact g.trans (List.prefix_append _ _)

theorem Said.onward {Params : Ses St → List TMsg → Prop} (hP : ∀ ms, Params s ms → Params s' ms) {b : Bool} {v : Bytes}
    (h : Onward True T s s') (g : Said Params env b s v) : Said Params env b s' v := by
  obtain ⟨ms, cs, x, g1, g2, g3, g4, g5, g6⟩ := g
  exact ⟨ms, cs, x, hP _ g1, h.eng.suite.trans g2, (secretOf_onward h b).trans g3, g4, prefix_onward h g5,
    fun hb => (g6 hb).onward h⟩

theorem Took.onward {Params : Ses St → List TMsg → Prop} (hP : ∀ ms, Params s ms → Params s' ms) {b : Bool} {v : Bytes}
    (h : Onward True T s s') (g : Took Params env b s v) : Took Params env b s' v := by
  obtain ⟨ms, cs, x, body, g1, g2, g3, g4, g5, g6, g7⟩ := g
  exact ⟨ms, cs, x, body, hP _ g1, h.eng.suite.trans g2, (secretOf_onward h b).trans g3, g4, g5, prefix_onward h g6,
    fun hb => (g7 hb).onward h⟩

theorem Said.shown {Params : Ses St → List TMsg → Prop} {l : List Event}
    (hP : ∀ ms, Params s ms → Params { s with events := l } ms) {b : Bool} {v : Bytes}
    (g : Said Params env b s v) : Said Params env b { s with events := l } v := by
  obtain ⟨ms, cs, x, g1, g2, g3, g4, g5, g6⟩ := g
  exact ⟨ms, cs, x, hP _ g1, g2, g3, g4, g5, g6⟩

theorem Took.shown {Params : Ses St → List TMsg → Prop} {l : List Event}
    (hP : ∀ ms, Params s ms → Params { s with events := l } ms) {b : Bool} {v : Bytes}
    (g : Took Params env b s v) : Took Params env b { s with events := l } v := by
  obtain ⟨ms, cs, x, body, g1, g2, g3, g4, g5, g6, g7⟩ := g
  exact ⟨ms, cs, x, body, hP _ g1, g2, g3, g4, g5, g6, g7⟩

theorem onward_noteTime (R : Role) (hr : ∀ n, (env.rand n 32).length = 32) (n : Nat) (s : Ses R.St) :
    Onward True T s (noteTime R env n s) := by
  unfold noteTime
  split
  · exact .mod rfl rfl rfl rfl rfl rfl rfl
  · exact ⟨rfl, rfl, rfl, rfl, fun _ x hx => by cases hx; exact hr _, rfl, .same rfl rfl rfl⟩

end

/-! ## Induction -/

/-- A handshake goes through stages; reaching the connected state announces it. -/
structure Plan (R : Role) (env : PEnv) (Stage : R.St → Ses R.St → Prop) (Done : Ses R.St → Prop) : Prop where
  onward : ∀ {st s s'}, Onward True Late s s' → Stage st s → Stage st s'
  done : ∀ {s s'}, Onward True Late s s' → Done s → Done s'
  shown : ∀ {st s} l, Stage st s → Stage st { s with events := l }
  doneShown : ∀ {s} l, Done s → Done { s with events := l }
  closed : ∀ {s}, Stage R.closed s
  half : ∀ {s}, Stage R.app s → Stage R.halfClosed s
  step : ∀ s, s.st ≠ R.app → s.st ≠ R.halfClosed → s.st ≠ R.closed → Stage s.st s → wp (R.step env s.st) s
    (fun new s' => s'.st = s.st ∧ Stage new s' ∧
      (toTell s' = toTell s ∨ new = R.app ∧ Done s' ∧ ∃ l, toTell s' = toTell s ++ l ∧ Announced env s' l))
    (fun _ s' => s'.st = s.st ∧ Stage s.st s' ∧ toTell s' = toTell s)

/-- Nothing is announced, or the handshake is over and what is announced is right. -/
def Right (R : Role) (env : PEnv) (Stage : R.St → Ses R.St → Prop) (Done : Ses R.St → Prop) (os : List Output)
    (s : Ses R.St) : Prop :=
  Stage s.st s ∧ (story os s = [] ∨
    (s.st = R.app ∨ s.st = R.halfClosed ∨ s.st = R.closed) ∧ Done s ∧ Announced env s (story os s))

section
variable {R : Role} {env : PEnv} {Stage : R.St → Ses R.St → Prop} {Done : Ses R.St → Prop}

theorem Right.onward (g : Plan R env Stage Done) {os os' : List Output} {s s' : Ses R.St} (h : Right R env Stage Done os s)
    (hv : Onward True Late s s') (hs : Stage s.st s → Stage s'.st s)
    (hst : s.st = R.app ∨ s.st = R.halfClosed ∨ s.st = R.closed → s'.st = R.app ∨ s'.st = R.halfClosed ∨ s'.st = R.closed)
    (ht : story os' s' = story os s) : Right R env Stage Done os' s' := by
  refine ⟨g.onward hv (hs h.1), ?_⟩
  rw [ht]
  exact h.2.imp_right fun ⟨h1, h2, h3⟩ => ⟨hst h1, g.done hv h2, h3.onward hv⟩

theorem story_same {os : List Output} {s s' : Ses R.St} (h : toTell s' = toTell s) : story os s' = story os s := by
  unfold story; rw [h]

theorem Right.same (g : Plan R env Stage Done) {os : List Output} {s s' : Ses R.St} (h : Right R env Stage Done os s)
    (hv : Onward True Late s s') (hs : s'.st = s.st) : Right R env Stage Done os s' :=
  h.onward g hv (by rw [hs]; exact id) (by rw [hs]; exact id) (story_same hv.told)

theorem Right.put (g : Plan R env Stage Done) {os : List Output} {s : Ses R.St} (h : Right R env Stage Done os s) {st : R.St}
    (hs : Stage st s) (hst : st = R.app ∨ st = R.halfClosed ∨ st = R.closed) :
    Right R env Stage Done os { s with st := st } :=
  h.onward g ((Onward.refl s).put st) (fun _ => hs) (fun _ => hst) rfl

theorem Plan.induct (g : Plan R env Stage Done) (ht : Tail R env) (hr : ∀ n, (env.rand n 32).length = 32) :
    Story R env (Right R env Stage Done) (Right R env Stage Done) where
  weak _ _ h := h
  eng os s e h h1 h2 := h.same g (.onEng (.of h1 h2)) rfl
  note os s n h := by
    refine h.same g (onward_noteTime R hr n s) ?_
    unfold noteTime
    split <;> rfl
  keep os s l b h _ := h.same g (.mod rfl rfl rfl rfl rfl rfl rfl) rfl
  queue os s l h := h.same g (.mod rfl rfl rfl rfl rfl rfl rfl) rfl
  closed os s h1 h2 h := h.put g g.closed (.inr (.inr rfl))
  half os s h1 h := h.put g (g.half (h1 ▸ h.1)) (.inr (.inl rfl))
  poll os s n h := by
    unfold pollM
    split
    · rename_i e rest he
      have ht : E13.toTell s = (if e = .peerCert then [] else [e]) ++ rest.filter (· ≠ .peerCert) := by
        unfold toTell
        rw [he]
        cases e <;> rfl
      have key : story (os ++ [eventOutput e n s.peerCerts]) { s with events := rest } = story os s := by
        unfold story
        rw [ht, List.filterMap_append, List.append_assoc]
        congr 1
        cases e with
        | connected => rfl
        | keyingMaterial km p => rfl
        | peerCert =>
          have : ∀ cs, [eventOutput .peerCert n cs].filterMap tells = [] := by
            intro cs
            unfold eventOutput
            cases cs with
            | nil => rfl
            | cons c _ => dsimp only; split <;> rfl
          rw [this]
          rfl
      refine ⟨g.shown rest h.1, ?_⟩
      rw [key]
      exact h.2.imp_right fun ⟨h1, h2, h3⟩ => ⟨h1, g.doneShown rest h2, h3⟩
    · refine h.onward g (.onEng (.of (pollOutput_grow ..) (pollOutput_hushed ..))) id id ?_
      unfold story
      rw [List.filterMap_append]
      exact congrArg (· ++ _) (List.append_nil _)
  step os s h := by
    have fr : ∀ (m : P R.St R.St) (p : R.St → Prop), VFr (Onward True Late) m → Gives p m →
        (∀ x, p x → (x = R.app ∨ x = R.halfClosed ∨ x = R.closed) ∧ (Stage s.st s → Stage x s)) →
        wp m s (fun new s' => s'.st = s.st ∧ Right R env Stage Done os { s' with st := new })
          (fun f s' => s'.st = s.st ∧ Right R env Stage Done os s' ∧ (¬ gone f → Right R env Stage Done os s')) := by
      intro m p hm hp hst
      refine wp_of ?_ ?_
      · intro new s' he
        obtain ⟨h1, h2⟩ := hm s
        rw [he] at h1 h2
        obtain ⟨h3, h4⟩ := hst new (hp s new (by rw [he]))
        exact ⟨h2, (h.same g h1 h2).put g (g.onward h1 (h4 h.1)) h3⟩
      · intro f s' he
        obtain ⟨h1, h2⟩ := hm s
        rw [he] at h1 h2
        exact ⟨h2, h.same g h1 h2, fun _ => h.same g h1 h2⟩
    by_cases h1 : s.st = R.app
    · have := fr (R.step env R.app) _ (ht.app ▸ app_vfr Onward.over R.app) ht.succApp
        (fun x hx => ⟨.inl hx, fun h => by rw [hx, ← h1]; exact h⟩)
      rw [h1] at this ⊢
      exact this
    by_cases h2 : s.st = R.halfClosed
    · have := fr (R.step env R.halfClosed) _ (ht.half ▸ half_vfr Onward.over _ _) ht.succHalf (by
        intro x hx
        refine ⟨.inr hx, fun h => ?_⟩
        rcases hx with rfl | rfl
        · rw [← h2]; exact h
        · exact g.closed)
      rw [h2] at this ⊢
      exact this
    by_cases h3 : s.st = R.closed
    · rw [h3, ht.closed]
      exact ⟨h3.symm ▸ rfl, h.put g g.closed (.inr (.inr rfl))⟩
    have h0 : story os s = [] := by
      rcases h.2 with h | ⟨h | h | h, _⟩
      · exact h
      all_goals contradiction
    refine wp_mono (g.step s h1 h2 h3 h.1) ?_ ?_
    · rintro new s' ⟨e1, e2, e3⟩
      have hv : Onward True Late s' { s' with st := new } := (Onward.refl s').put new
      refine ⟨e1, g.onward hv e2, ?_⟩
      rcases e3 with e3 | ⟨e3, e4, l, e5, e6⟩
      · exact .inl ((story_same (s := s) e3).trans h0)
      · have : story os { s' with st := new } = l := by
          unfold story at h0 ⊢
          rw [show toTell { s' with st := new } = toTell s' from rfl, e5, ← List.append_assoc, h0]
          rfl
        rw [this]
        exact .inr ⟨.inl e3, g.done hv e4, e6.onward hv⟩
    · rintro f s' ⟨e1, e2, e3⟩
      have : Right R env Stage Done os s' := ⟨e1 ▸ e2, .inl ((story_same (s := s) e3).trans h0)⟩
      exact ⟨e1, this, fun _ => this⟩

end

/-! ## The end of the handshake -/

section
variable {St : Type} {env : PEnv}

/-- `announceConnected` announces what the session has; with a suite it does not fail. -/
theorem announce_right (rel : Eng → Eng) (app : St) (s : Ses St) (hs : s.eng.suite ≠ none)
    (hr : ∀ e, Adds True Late e (rel e)) :
    wp (announceConnected env rel app) s
    (fun new s' => new = app ∧ s'.st = s.st ∧ ∃ l, toTell s' = toTell s ++ l ∧ Announced env s' l ∧
      Onward True Late { s with events := s'.events } s')
    (fun _ _ => False) := by
  have tell : ∀ (l : List Event), (∀ e ∈ l, e ≠ .peerCert) → ∀ x : Ses St, x.events = s.events ++ l → toTell x = toTell s ++ l := by
    intro l hl x hx
    unfold toTell
    rw [hx, List.filter_append, List.filter_eq_self.mpr (fun e he => decide_eq_true (hl e he))]
  have km_eq : ∀ (x : Ses St) km p, KmOf env x km p → x.srtp = s.srtp → x.eng = rel s.eng → KmOf env s km p := by
    intro x km p h h1 h2
    unfold KmOf at h
    rw [h1, h2, (hr s.eng).suite, (hr s.eng).exporter trivial] at h
    exact h
  unfold announceConnected
  simp only [bind_eq, pure_eq, wp_bind, wp_modify, wp_get]
  split
  · rename_i hsr
    simp only [wp_bind, wp_onEng', wp_pure]
    refine ⟨trivial, trivial, [.connected], tell _ (by simp) _ rfl, .inl ⟨rfl, fun km p h => ?_⟩, .onEng (hr _)⟩
    replace h := km_eq _ km p h rfl rfl
    obtain ⟨_, _, _, h, _⟩ := h
    rw [show s.srtp = none from hsr] at h
    cases h
  · rename_i p0 hsr
    rw [wp_bind]
    obtain ⟨cs, hcs⟩ := Option.ne_none_iff_exists'.mp hs
    rw [hcs]
    show wp (M.pure cs) _ _ _
    rw [wp_pure]
    split
    · rename_i ex hex
      split
      · rename_i km hkm
        simp only [wp_bind, wp_modify, wp_onEng', wp_pure]
        refine ⟨trivial, trivial, [.connected, .keyingMaterial km p0], tell _ (by simp) _ (List.append_assoc _ _ _),
          .inr ⟨km, p0, rfl, ?_⟩, .onEng (hr _)⟩
        exact ⟨cs, ex, (hr _).suite.trans hcs, hsr, ((hr _).exporter trivial).trans hex, hkm⟩
      · rename_i hkm
        simp only [wp_bind, wp_onEng', wp_pure]
        refine ⟨trivial, trivial, [.connected], tell _ (by simp) _ rfl, .inl ⟨rfl, fun km p h => ?_⟩, .onEng (hr _)⟩
        replace h := km_eq _ km p h rfl rfl
        obtain ⟨cs', ex', h1, h2, h3, h4⟩ := h
        have h1 := (show some cs = some cs' from hcs.symm.trans h1)
        have h2 := (show some p0 = some p from hsr.symm.trans h2)
        have h3 := (show some ex = some ex' from hex.symm.trans h3)
        cases h1; cases h2; cases h3
        rw [hkm] at h4
        cases h4
    · rename_i hno
      simp only [wp_bind, wp_onEng', wp_pure]
      refine ⟨trivial, trivial, [.connected], tell _ (by simp) _ rfl, .inl ⟨rfl, fun km p h => ?_⟩, .onEng (hr _)⟩
      replace h := km_eq _ km p h rfl rfl
      obtain ⟨cs', ex', h1, h2, h3, h4⟩ := h
      have : none = some ex' := hno.symm.trans h3
      cases this

end
end Verif.Props.Agree13

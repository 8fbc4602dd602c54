import Verif.Props.AgreeBase13
import Verif.Props.Shake13
/-!
# What a DTLS 1.3 client's parameters come from (for C63 and C64)
-/
namespace Verif.Props.Agree13
open Verif Wire Window Timer Aead M E13
open Verif.E12 (Call Event Output eventOutput outputs)

section
variable {St : Type} {env : PEnv}

/-- A successful `installApplication`. -/
theorem installApplication_ok (s : Ses St) : wp (installApplication env) s
    (fun _ s' => ∃ cs hs c sv ex e, s.eng.suite = some cs ∧ s.hsSecret = some hs ∧
      env.deriveApp cs hs s.eng.transcript = some (c, sv, ex) ∧ e.exporter = some ex ∧ e.suite = s.eng.suite ∧
      e.transcript = s.eng.transcript ∧ s' = { s with eng := e })
    (fun _ _ => True) := by
  unfold installApplication
  simp only [bind_eq, wp_bind, wp_get]
  refine wp_orFatal_of (fun hs h1 => ?_) trivial
  refine wp_orPanic_of (fun cs h2 => ?_) trivial
  refine wp_orFatal_of (fun x h3 => ?_) trivial
  rw [wp_onEng', wp_onEng]
  refine wp_of ?_ (fun _ _ _ => trivial)
  intro _ e he
  have g := installApplicationKeys_grow env.toEnv x.1 x.2.1 { s.eng with exporter := some x.2.2 }
  have c := installApplicationKeys_hushed env.toEnv x.1 x.2.1 { s.eng with exporter := some x.2.2 }
  rw [he] at g c
  exact ⟨cs, hs, x.1, x.2.1, x.2.2, e, h2, h1, h3, c.exporter, g.suite, c.transcript, rfl⟩

/-- A step that adds messages and keeps the rest. -/
theorem frame_step {σ : Type} {Stage : σ → Ses σ → Prop} {Q : σ → Ses σ → Prop} {st : σ} {m : P σ σ} {s : Ses σ} {p : σ → Prop}
    (hm : VFr (Onward True Late) m) (hp : Gives p m) (hst : s.st = st)
    (ho : ∀ s', Onward True Late s s' → Stage st s') (hn : ∀ x, p x → ∀ s', Stage st s' → Stage x s') :
    wp m s (fun new s' => s'.st = s.st ∧ Stage new s' ∧ (toTell s' = toTell s ∨ Q new s'))
      (fun _ s' => s'.st = s.st ∧ Stage s.st s' ∧ toTell s' = toTell s) := by
  refine wp_of ?_ ?_
  · intro new s' he
    obtain ⟨h1, h2⟩ := hm s
    rw [he] at h1 h2
    exact ⟨h2, hn new (hp s new (by rw [he])) s' (ho s' h1), .inl h1.told⟩
  · intro f s' he
    obtain ⟨h1, h2⟩ := hm s
    rw [he] at h1 h2
    exact ⟨h2, hst ▸ ho s' h1, h1.told⟩

end

namespace Client

/-- The suite and the handshake secrets are from the last ServerHello. -/
def Hello (env : PEnv) (s : Ses CSt) (ms : List TMsg) : Prop :=
  ∃ pre body post h shared c sv hs, ms = pre ++ ⟨2, body⟩ :: post ∧ (∀ m ∈ post, m.t ≠ 2) ∧
    env.parseServerHello body = some ([], h) ∧ s.eng.suite = some h.suite ∧
    env.deriveHs h.suite shared (flat (pre ++ [⟨2, body⟩])) = some (c, sv, hs) ∧
    s.clientHs = some c ∧ s.serverHs = some sv ∧ s.hsSecret = some hs

/-- The SRTP profile is from an EncryptedExtensions. -/
def Offered (env : PEnv) (s : Ses CSt) (ms : List TMsg) : Prop :=
  ∀ p, s.srtp = some p → ∃ m ∈ ms, m.t = 8 ∧ ∃ xs d ps, env.parseEncryptedExtensions m.body = some ([], xs) ∧
    (14, d) ∈ xs ∧ env.parseUseSrtp d = some (p :: ps)

/-- There is an EncryptedExtensions; without SRTP profile, it has none. -/
def Exts (env : PEnv) (s : Ses CSt) (ms : List TMsg) : Prop :=
  ∃ m ∈ ms, m.t = 8 ∧ ∃ xs, env.parseEncryptedExtensions m.body = some ([], xs) ∧
    (s.srtp = none → ∀ d, (14, d) ∈ xs → env.parseUseSrtp d = some [])

/-- The messages say the parameters. -/
structure Params (env : PEnv) (s : Ses CSt) (ms : List TMsg) : Prop where
  hello : Hello env s ms
  offered : Offered env s ms
  exts : Exts env s ms

variable {env : PEnv} {s s' : Ses CSt} {X : Prop} {T : UInt8 → Prop} {ms ns : List TMsg}

theorem Hello.onward (h : Onward X T s s') (g : Hello env s ms) : Hello env s' ms := by
  unfold Hello at g ⊢
  rw [h.eng.suite, h.clientHs, h.serverHs, h.hsSecret]
  exact g

theorem Offered.onward (h : Onward X T s s') (g : Offered env s ms) : Offered env s' ms := by
  unfold Offered at g ⊢
  rw [h.srtp]
  exact g

theorem Params.onward (h : Onward X T s s') (g : Params env s ms) : Params env s' ms := by
  refine ⟨g.hello.onward h, g.offered.onward h, ?_⟩
  have g := g.exts
  unfold Exts at g ⊢
  rw [h.srtp]
  exact g

theorem Hello.add (h : ∀ m ∈ ns, m.t ≠ 2) (g : Hello env s ms) : Hello env s (ms ++ ns) := by
  obtain ⟨pre, body, post, x, shared, c, sv, hs, rfl, h1, rest⟩ := g
  refine ⟨pre, body, post ++ ns, x, shared, c, sv, hs, by simp, fun m hm => ?_, rest⟩
  rcases List.mem_append.mp hm with hm | hm
  · exact h1 m hm
  · exact h m hm

theorem Offered.add (g : Offered env s ms) : Offered env s (ms ++ ns) := fun p hp => by
  obtain ⟨m, h1, h2⟩ := g p hp
  exact ⟨m, List.mem_append_left _ h1, h2⟩

theorem Params.add (h : ∀ m ∈ ns, m.t ≠ 2) (g : Params env s ms) : Params env s (ms ++ ns) := by
  obtain ⟨m, h1, h2⟩ := g.exts
  exact ⟨g.hello.add h, g.offered.add, m, List.mem_append_left _ h1, h2⟩

/-- The whole transcript is messages that say the parameters. -/
def Whole (env : PEnv) (s : Ses CSt) : Prop := ∃ ms, s.eng.transcript = flat ms ∧ Params env s ms

theorem Whole.onward (h : Onward X Late s s') (g : Whole env s) : Whole env s' := by
  obtain ⟨ms, h1, h2⟩ := g
  obtain ⟨ns, k1, k2⟩ := h.eng.adds
  exact ⟨ms ++ ns, by rw [k1, h1, flat_append], (h2.onward h).add fun m hm => (k2 m hm).1⟩

/-- What a connected client has done. -/
structure Done (env : PEnv) (s : Ses CSt) : Prop where
  took : ∃ v, Took (Params env) env true s v
  said : ∃ v, Said (Params env) env false s v

theorem Done.onward (h : Onward True T s s') (g : Done env s) : Done env s' := by
  obtain ⟨⟨v, h1⟩, w, h2⟩ := g
  exact ⟨⟨v, h1.onward (fun _ => .onward h) h⟩, w, h2.onward (fun _ => .onward h) h⟩

/-- What holds in each state. -/
def Stage (env : PEnv) : CSt → Ses CSt → Prop
  | .sendClientHello, s | .awaitServerHello, s => s.srtp = none ∧ Flat Any s.eng.transcript
  | .awaitEncryptedExtensions, s => ∃ ms, s.eng.transcript = flat ms ∧ Hello env s ms ∧ Offered env s ms
  | .awaitCertificateRequest, s | .awaitCertificate, s | .awaitCertificateVerify, s | .awaitFinished, s => Whole env s
  | .sendCertificate, s | .sendCertificateVerify, s | .sendFinished, s =>
    Whole env s ∧ ∃ v, Took (Params env) env true s v
  | .awaitApplicationData, s | .halfClosedLocal, s => Done env s
  | .closed, _ => True

theorem stage_onward {st : CSt} (h : Onward True Late s s') (g : Stage env st s) : Stage env st s' := by
  have flat : s.srtp = none ∧ Flat Any s.eng.transcript → s'.srtp = none ∧ Flat Any s'.eng.transcript := by
    rintro ⟨h1, h2⟩
    obtain ⟨ns, k1, k2⟩ := h.eng.adds
    exact ⟨h.srtp.trans h1, by rw [k1]; exact h2.add _ _ fun _ _ => trivial⟩
  have took : (Whole env s ∧ ∃ v, Took (Params env) env true s v) → Whole env s' ∧ ∃ v, Took (Params env) env true s' v := by
    rintro ⟨h1, v, h2⟩
    exact ⟨h1.onward h, v, h2.onward (fun _ => .onward h) h⟩
  cases st with
  | sendClientHello => exact flat g
  | awaitServerHello => exact flat g
  | awaitEncryptedExtensions =>
    obtain ⟨ms, h1, h2, h3⟩ := g
    obtain ⟨ns, k1, k2⟩ := h.eng.adds
    exact ⟨ms ++ ns, by rw [k1, h1, flat_append], (h2.onward h).add fun m hm => (k2 m hm).1, (h3.onward h).add⟩
  | awaitCertificateRequest => exact Whole.onward h g
  | awaitCertificate => exact Whole.onward h g
  | awaitCertificateVerify => exact Whole.onward h g
  | awaitFinished => exact Whole.onward h g
  | sendCertificate => exact took g
  | sendCertificateVerify => exact took g
  | sendFinished => exact took g
  | awaitApplicationData => exact Done.onward h g
  | halfClosedLocal => exact Done.onward h g
  | closed => trivial

/-! ## First states -/

/-- Nothing is said about suites. -/
abbrev Hs (_ : Nat) : Prop := True
abbrev Gs (p : Option Nat) : Prop := p = none

theorem sendClientHello_young : VFr (Young (Flat Any) Gs Hs) (C13.sendClientHello env) := by
  have hf := Young.flats (St := CSt) (T := Any) (G := Gs) (H := Hs)
  unfold C13.sendClientHello
  simp only [bind_eq, pure_eq]
  vfr hf

variable {F : Bytes → Prop}

theorem retryExtensions_young (l : List (Nat × Bytes)) : VFr (Young F Gs Hs) (C13.retryExtensions env l) := by
  have hf := Young.quiet (St := CSt) (F := F) (G := Gs) (H := Hs)
  induction l with
  | nil => exact .pure hf.toOrder _
  | cons x rest ih =>
    obtain ⟨t, d⟩ := x
    unfold C13.retryExtensions
    simp only [bind_eq]
    vfr hf

theorem serverHello_young (h : ServerHello) : VFr (Young F Gs Hs) (C13.serverHello env h) := by
  have hf := Young.quiet (St := CSt) (F := F) (G := Gs) (H := Hs)
  have h1 := fun n => setSuite_young (St := CSt) (F := F) (G := Gs) (H := Hs) n trivial
  have h2 := fun x => installHandshake_young (env := env) hf x
  unfold C13.serverHello
  simp only [bind_eq, pure_eq]
  vfr hf
  all_goals first | exact h1 _ | exact h2 _

theorem helloRetry_young (h : ServerHello) (s : Ses CSt) (pre post : List TMsg)
    (ht : s.eng.transcript = flat pre ++ flat post) :
    wp (C13.helloRetry env (flat pre).length h) s
      (fun new s' => new = .sendClientHello ∧ s'.st = s.st ∧ Young (Flat Any) Gs Hs s s')
      (fun _ s' => s'.st = s.st ∧ Young (Flat Any) Gs Hs s s') := by
  have hf := Young.flats (St := CSt) (T := Any) (G := Gs) (H := Hs)
  -- while the transcript is as at the start
  have still : ∀ {a : Ses CSt}, Young (· = s.eng.transcript) Gs Hs s a → Young (Flat Any) Gs Hs s a := by
    intro a g
    exact ⟨g.told, g.random, g.srtp, g.suite, by rw [g.flat rfl]; exact id⟩
  have hq := Young.quiet (St := CSt) (F := (· = s.eng.transcript)) (G := Gs) (H := Hs)
  unfold C13.helloRetry
  simp only [bind_eq, pure_eq, wp_bind, wp_get]
  split
  · simp only [wp_bind, wp_onEng']
    refine ⟨rfl, rfl, id, id, id, fun _ => ?_⟩
    show Flat Any (s.eng.transcript.take (flat pre).length)
    rw [ht, List.take_left]
    exact ⟨pre, rfl, fun _ _ => trivial⟩
  · rw [wp_bind]
    refine wp_mono ((retryExtensions_young (env := env) (F := (· = s.eng.transcript)) _).wp s) ?_
      (fun _ _ g => ⟨g.2, still g.1⟩)
    rintro _ a ⟨g1, e1⟩
    rw [wp_bind]
    refine wp_check_of (fun _ => ?_) ⟨e1, still g1⟩
    rw [wp_bind]
    refine wp_mono ((setSuite_young (St := CSt) (F := (· = s.eng.transcript)) (G := Gs) (H := Hs) h.suite trivial).wp a) ?_
      (fun _ _ g => ⟨g.2.trans e1, still (hq.trans g1 g.1)⟩)
    rintro _ b ⟨g2, e2⟩
    have g2 := hq.trans g1 g2
    have e2 := e2.trans e1
    rw [wp_bind]
    refine wp_check_of (fun _ => ?_) ⟨e2, still g2⟩
    rw [wp_bind]
    obtain ⟨g3, e3⟩ := replaceTranscript_young (env := env) (T := Any) (G := Gs) (H := Hs) (flat pre).length trivial b (by
      rw [g2.flat rfl, ht, List.drop_left]
      exact ⟨post, rfl, fun _ _ => trivial⟩)
    refine wp_mono (to_wp (R := fun x => x = (onEng (replaceTranscript env.toEnv (flat pre).length) b : _ × Ses CSt).2) rfl) ?_ ?_
    · intro _ x hx
      subst hx
      generalize (onEng (replaceTranscript env.toEnv (flat pre).length) b : _ × Ses CSt).2 = x at g3 e3
      have g3 := hf.trans (still g2) g3
      have e3 := e3.trans e2
      have hl : VFr (Young (Flat Any) Gs Hs) (M.bind (onEng advancePeerSeq) fun _ => M.bind (onEng' resetForHelloRetry) fun _ =>
          M.bind (M.modify fun s => { s with helloRetry := true, kx := none }) fun _ => (M.pure CSt.sendClientHello : P CSt CSt)) := by
        have h1 := resetForHelloRetry_young (St := CSt) (F := Flat Any) (G := Gs) (H := Hs)
        vfr hf
      have hg : Gives (· = CSt.sendClientHello) (M.bind (onEng advancePeerSeq) fun _ => M.bind (onEng' resetForHelloRetry) fun _ =>
          M.bind (M.modify fun s => { s with helloRetry := true, kx := none }) fun _ => (M.pure CSt.sendClientHello : P CSt CSt)) :=
        .bind fun _ => .bind fun _ => .bind fun _ => .pure rfl
      refine wp_of ?_ ?_
      · intro new y hy
        obtain ⟨k1, k2⟩ := hl x
        rw [hy] at k1 k2
        exact ⟨hg x new (by rw [hy]), k2.trans e3, hf.trans g3 k1⟩
      · intro f y hy
        obtain ⟨k1, k2⟩ := hl x
        rw [hy] at k1 k2
        exact ⟨k2.trans e3, hf.trans g3 k1⟩
    · intro _ x hx
      subst hx
      exact ⟨e3.trans e2, hf.trans (still g2) g3⟩

theorem Params.shown (l : List Event) (g : Params env s ms) : Params env { s with events := l } ms :=
  ⟨g.hello, g.offered, g.exts⟩

theorem Whole.shown (l : List Event) (g : Whole env s) : Whole env { s with events := l } := by
  obtain ⟨ms, h1, h2⟩ := g
  exact ⟨ms, h1, h2.shown l⟩

theorem Done.shown (l : List Event) (g : Done env s) : Done env { s with events := l } := by
  obtain ⟨⟨v, h1⟩, w, h2⟩ := g
  exact ⟨⟨v, h1.shown (fun _ h => h.shown l)⟩, w, h2.shown (fun _ h => h.shown l)⟩

theorem stage_shown {st : CSt} (l : List Event) (g : Stage env st s) : Stage env st { s with events := l } := by
  have took : ∀ {s : Ses CSt}, (Whole env s ∧ ∃ v, Took (Params env) env true s v) →
      Whole env { s with events := l } ∧ ∃ v, Took (Params env) env true { s with events := l } v :=
    fun ⟨h1, v, h2⟩ => ⟨h1.shown l, v, h2.shown (fun _ h => h.shown l)⟩
  cases st with
  | sendClientHello => exact g
  | awaitServerHello => exact g
  | awaitEncryptedExtensions => exact g
  | awaitCertificateRequest => exact Whole.shown l g
  | awaitCertificate => exact Whole.shown l g
  | awaitCertificateVerify => exact Whole.shown l g
  | awaitFinished => exact Whole.shown l g
  | sendCertificate => exact took g
  | sendCertificateVerify => exact took g
  | sendFinished => exact took g
  | awaitApplicationData => exact Done.shown l g
  | halfClosedLocal => exact Done.shown l g
  | closed => trivial

/-- What a step has to give. -/
abbrev StepOk (env : PEnv) (st : CSt) (m : P CSt CSt) : Prop := ∀ s : Ses CSt, s.st = st → Stage env st s → wp m s
  (fun new s' => s'.st = s.st ∧ Stage env new s' ∧ (toTell s' = toTell s ∨
    new = .awaitApplicationData ∧ Done env s' ∧ ∃ l, toTell s' = toTell s ++ l ∧ Announced env s' l))
  (fun _ s' => s'.st = s.st ∧ Stage env s.st s' ∧ toTell s' = toTell s)

theorem at_st {st : CSt} (h : s.st = st) (g : Stage env st s') : Stage env s.st s' := h ▸ g

theorem step_sendClientHello : StepOk env .sendClientHello (C13.sendClientHello env) := by
  intro s hst hg
  have hy := sendClientHello_young (env := env)
  have hp := fun a h => List.mem_singleton.mp (C13.step_succ env .sendClientHello s a h)
  refine wp_of ?_ ?_
  · intro new s' he
    obtain ⟨h1, h2⟩ := hy s
    rw [he] at h1 h2
    have hn : new = .awaitServerHello := hp new (by rw [show C13.step env .sendClientHello = C13.sendClientHello env from rfl, he])
    subst hn
    exact ⟨h2, ⟨h1.srtp hg.1, h1.flat hg.2⟩, .inl h1.told⟩
  · intro f s' he
    obtain ⟨h1, h2⟩ := hy s
    rw [he] at h1 h2
    exact ⟨h2, at_st hst ⟨h1.srtp hg.1, h1.flat hg.2⟩, h1.told⟩

theorem step_awaitServerHello : StepOk env .awaitServerHello (C13.awaitServerHello env) := by
  intro s hst hg
  obtain ⟨hsr, ms, hms, -⟩ := hg
  unfold C13.awaitServerHello
  simp only [bind_eq, pure_eq, wp_bind, wp_get]
  rw [wp_onEng]
  refine wp_mono (nextHandshake_ok env.toEnv mtServerHello s.eng rfl) ?_ ?_
  · rintro m e ⟨hgr, ⟨rfl, rfl⟩ | ⟨b, seq, body, rfl, -, hp, ht⟩⟩
    · exact ⟨rfl, ⟨hsr, ms, hms, fun _ _ => trivial⟩, .inl rfl⟩
    · obtain ⟨h, rfl, hpx⟩ := parseBody_serverHello hp
      rw [transcriptOf_bytes, hms] at ht
      have hfl : Flat Any e.transcript := by rw [ht, ← flat_append]; exact ⟨_, rfl, fun _ _ => trivial⟩
      dsimp only
      split
      · rw [show s.eng.transcript.length = (flat ms).length by rw [hms]]
        refine wp_mono (helloRetry_young h { s with eng := e } ms [⟨mtServerHello, body⟩] ht) ?_ ?_
        · rintro new s' ⟨rfl, g1, g2⟩
          exact ⟨g1, ⟨g2.srtp hsr, g2.flat hfl⟩, .inl g2.told⟩
        · rintro _ s' ⟨g1, g2⟩
          exact ⟨g1, at_st hst ⟨g2.srtp hsr, g2.flat hfl⟩, g2.told⟩
      · have hy := (serverHello_young (env := env) (F := (· = e.transcript)) h).wp { s with eng := e }
        refine wp_mono (wp_and hy (Shake13.Client.serverHello_ok h { s with eng := e })) ?_ ?_
        · rintro new s' ⟨⟨g1, g2⟩, rfl, _, _, _, _, shared, _, k1, _, _, _, _, _, _, ⟨c, sv, hs, k2, k3, k4, k5⟩, _⟩
          have htr : s'.eng.transcript = e.transcript := g1.flat rfl
          have hsr' : s'.srtp = none := g1.srtp hsr
          refine ⟨g2, ⟨ms ++ [⟨2, body⟩], ?_, ⟨ms, body, [], h, shared, c, sv, hs, rfl, nofun, hpx, k1, ?_, ?_⟩, ?_⟩, .inl g1.told⟩
          · rw [htr, ht, flat_append]
          · rw [flat_append]
            have k2 : env.deriveHs h.suite shared e.transcript = some (c, sv, hs) := k2
            rw [ht] at k2
            exact k2
          · exact ⟨k3, k4, k5⟩
          · intro p hp
            rw [hsr'] at hp
            cases hp
        · rintro _ s' ⟨⟨g1, g2⟩, -⟩
          have htr : s'.eng.transcript = e.transcript := g1.flat rfl
          exact ⟨g2, at_st hst ⟨g1.srtp hsr, by rw [htr]; exact hfl⟩, g1.told⟩
  · rintro _ e ⟨hgr, -, ht⟩
    exact ⟨rfl, at_st hst ⟨hsr, ms, ht.trans hms, fun _ _ => trivial⟩, rfl⟩

/-! ## EncryptedExtensions -/

theorem encryptedExtensions_ok (xs : List (Nat × Bytes)) (s : Ses CSt) : wp (C13.encryptedExtensions env xs) s
    (fun _ s' => ∃ q, s' = { s with srtp := q } ∧
      (q = s.srtp ∨ ∃ p d ps, q = some p ∧ (14, d) ∈ xs ∧ env.parseUseSrtp d = some (p :: ps)) ∧
      (q = none → s.srtp = none ∧ ∀ d, (14, d) ∈ xs → env.parseUseSrtp d = some []))
    (fun _ s' => ∃ q, s' = { s with srtp := q } ∧
      (q = s.srtp ∨ ∃ p d ps, q = some p ∧ (14, d) ∈ xs ∧ env.parseUseSrtp d = some (p :: ps))) := by
  induction xs generalizing s with
  | nil => exact ⟨s.srtp, rfl, .inl rfl, fun h => ⟨h, nofun⟩⟩
  | cons x rest ih =>
    obtain ⟨t, d⟩ := x
    unfold C13.encryptedExtensions
    by_cases ht : t = 14
    · subst ht
      rw [if_pos rfl]
      simp only [bind_eq, wp_bind]
      refine wp_orTransient_of (fun ps hps => ?_) ⟨s.srtp, rfl, .inl rfl⟩
      cases ps with
      | nil =>
        refine wp_mono (ih s) ?_ ?_
        · rintro _ s' ⟨q, h1, h2, h3⟩
          refine ⟨q, h1, h2.imp_right fun ⟨p, d', ps, k1, k2, k3⟩ => ⟨p, d', ps, k1, List.mem_cons_of_mem _ k2, k3⟩, fun hq => ?_⟩
          refine ⟨(h3 hq).1, fun d' hd => ?_⟩
          rcases List.mem_cons.mp hd with hd | hd
          · cases hd; exact hps
          · exact (h3 hq).2 d' hd
        · rintro _ s' ⟨q, h1, h2⟩
          exact ⟨q, h1, h2.imp_right fun ⟨p, d', ps, k1, k2, k3⟩ => ⟨p, d', ps, k1, List.mem_cons_of_mem _ k2, k3⟩⟩
      | cons p ps =>
        dsimp only
        rw [wp_bind, wp_modify]
        refine wp_mono (ih _) ?_ ?_
        · rintro _ s' ⟨q, h1, h2, h3⟩
          refine ⟨q, h1, .inr ?_, fun hq => ?_⟩
          · rcases h2 with h2 | ⟨p, d', ps, k1, k2, k3⟩
            · exact ⟨p, d, ps, h2, List.mem_cons_self, hps⟩
            · exact ⟨p, d', ps, k1, List.mem_cons_of_mem _ k2, k3⟩
          · have := (h3 hq).1
            cases this
        · rintro _ s' ⟨q, h1, h2⟩
          refine ⟨q, h1, .inr ?_⟩
          rcases h2 with h2 | ⟨p, d', ps, k1, k2, k3⟩
          · exact ⟨p, d, ps, h2, List.mem_cons_self, hps⟩
          · exact ⟨p, d', ps, k1, List.mem_cons_of_mem _ k2, k3⟩
    · rw [if_neg ht]
      refine wp_mono (ih s) ?_ ?_
      · rintro _ s' ⟨q, h1, h2, h3⟩
        refine ⟨q, h1, h2.imp_right fun ⟨p, d', ps, k1, k2, k3⟩ => ⟨p, d', ps, k1, List.mem_cons_of_mem _ k2, k3⟩, fun hq => ?_⟩
        refine ⟨(h3 hq).1, fun d' hd => ?_⟩
        rcases List.mem_cons.mp hd with hd | hd
        · cases hd; exact absurd rfl ht
        · exact (h3 hq).2 d' hd
      · rintro _ s' ⟨q, h1, h2⟩
        exact ⟨q, h1, h2.imp_right fun ⟨p, d', ps, k1, k2, k3⟩ => ⟨p, d', ps, k1, List.mem_cons_of_mem _ k2, k3⟩⟩

theorem parseBody_exts {a : Bool} {su : Option Nat} {body : Bytes} {b : Body}
    (h : parseBody env.toEnv a mtEncryptedExtensions su body = some ([], b)) :
    ∃ x, b = .encryptedExtensions x ∧ env.parseEncryptedExtensions body = some ([], x) := by
  simp (decide := true) only [parseBody, reduceIte, Option.map_eq_some_iff] at h
  obtain ⟨⟨r, x⟩, h1, h2⟩ := h
  cases h2
  exact ⟨x, rfl, h1⟩

theorem step_awaitEncryptedExtensions : StepOk env .awaitEncryptedExtensions (C13.awaitEncryptedExtensions env) := by
  intro s hst hg
  obtain ⟨ms, hms, hhe, hof⟩ := hg
  unfold C13.awaitEncryptedExtensions
  simp only [bind_eq, pure_eq, wp_bind]
  rw [wp_onEng]
  refine wp_mono (nextHandshake_ok env.toEnv mtEncryptedExtensions s.eng rfl) ?_ ?_
  · rintro m e ⟨hgr, ⟨rfl, rfl⟩ | ⟨b, seq, body, rfl, -, hp, ht⟩⟩
    · exact ⟨rfl, ⟨ms, hms, hhe, hof⟩, .inl rfl⟩
    · obtain ⟨xs, rfl, hpx⟩ := parseBody_exts hp
      rw [transcriptOf_bytes, hms, ← flat_append] at ht
      -- what holds after any part of the extensions
      have key : ∀ x : Ses CSt, x.eng.suite = e.suite → x.clientHs = s.clientHs → x.serverHs = s.serverHs →
          x.hsSecret = s.hsSecret →
          (x.srtp = s.srtp ∨ ∃ p d ps, x.srtp = some p ∧ (14, d) ∈ xs ∧ env.parseUseSrtp d = some (p :: ps)) →
          Hello env x (ms ++ [⟨8, body⟩]) ∧ Offered env x (ms ++ [⟨8, body⟩]) := by
        intro x x1 x2 x3 x4 hq
        constructor
        · have := hhe.add (ns := [⟨8, body⟩]) (fun m hm => by rw [List.mem_singleton.mp hm]; show (8 : UInt8) ≠ 2; decide)
          unfold Hello at this ⊢
          rw [x1.trans hgr.suite, x2, x3, x4]
          exact this
        · rcases hq with hq | ⟨p, d, ps, k1, k2, k3⟩
          · have := hof.add (ns := [⟨8, body⟩])
            unfold Offered at this ⊢
            rw [hq]
            exact this
          · intro p' hp'
            rw [k1] at hp'
            cases hp'
            exact ⟨⟨8, body⟩, by simp, rfl, xs, d, ps, hpx, k2, k3⟩
      dsimp only
      rw [wp_bind]
      refine wp_mono (encryptedExtensions_ok xs { s with eng := e }) ?_ ?_
      · rintro _ s' ⟨q, rfl, h2, h3⟩
        rw [wp_bind, wp_onEng]
        refine wp_of ?_ ?_
        · intro _ e' he
          have g1 := advancePeerSeq_grow e
          have g2 := advancePeerSeq_hushed e
          rw [he] at g1 g2
          obtain ⟨k1, k2⟩ := key { s with eng := e', srtp := q } g1.suite rfl rfl rfl h2
          refine ⟨rfl, ⟨ms ++ [⟨8, body⟩], g2.transcript.trans ht, k1, k2, ⟨8, body⟩, by simp, rfl, xs, hpx, fun hq => (h3 hq).2⟩, .inl rfl⟩
        · intro _ e' he
          have g1 := advancePeerSeq_grow e
          have g2 := advancePeerSeq_hushed e
          rw [he] at g1 g2
          obtain ⟨k1, k2⟩ := key { s with eng := e', srtp := q } g1.suite rfl rfl rfl h2
          exact ⟨rfl, at_st hst ⟨ms ++ [⟨8, body⟩], g2.transcript.trans ht, k1, k2⟩, rfl⟩
      · rintro _ s' ⟨q, rfl, h2⟩
        obtain ⟨k1, k2⟩ := key { s with eng := e, srtp := q } rfl rfl rfl rfl h2
        exact ⟨rfl, at_st hst ⟨ms ++ [⟨8, body⟩], ht, k1, k2⟩, rfl⟩
  · rintro _ e ⟨hgr, -, ht⟩
    refine ⟨rfl, at_st hst ⟨ms, ht.trans hms, ?_, hof⟩, rfl⟩
    unfold Hello at hhe ⊢
    rw [show ({ s with eng := e } : Ses CSt).eng.suite = s.eng.suite from hgr.suite]
    exact hhe

/-! ## Later states -/

theorem awaitCertificateRequest_vfr : VFr (Onward True Late) (C13.awaitCertificateRequest env) := by
  have hf := Onward.over (St := CSt) (X := True) (T := Late)
  have h : VFr (Onward True Late) (onEng (nextHandshake env.toEnv mtCertificateRequest) : P CSt (Option Body)) :=
    .hears hf rfl (by decide)
  unfold C13.awaitCertificateRequest
  simp only [bind_eq, pure_eq]
  vfr hf

theorem awaitCertificate_vfr : VFr (Onward True Late) (C13.awaitCertificate env) := by
  have hf := Onward.over (St := CSt) (X := True) (T := Late)
  have h : VFr (Onward True Late) (onEng (nextHandshake env.toEnv mtCertificate) : P CSt (Option Body)) :=
    .hears hf rfl (by decide)
  unfold C13.awaitCertificate
  simp only [bind_eq, pure_eq]
  vfr hf

theorem sendCertificate_vfr : VFr (Onward True Late) (C13.sendCertificate env) := by
  have hf := Onward.over (St := CSt) (X := True) (T := Late)
  unfold C13.sendCertificate
  simp only [bind_eq, pure_eq]
  vfr hf

theorem sendCertificateVerify_vfr : VFr (Onward True Late) (C13.sendCertificateVerify env) := by
  have hf := Onward.over (St := CSt) (X := True) (T := Late)
  have h := certificateVerifyBody_vfr (env := env) hf clientLabel
  unfold C13.sendCertificateVerify
  simp only [bind_eq, pure_eq]
  vfr hf

theorem awaitFinished_vfr : VFr (Onward False Late) (C13.awaitFinished env) := by
  have hf := Onward.over (St := CSt) (X := False) (T := Late)
  have h : VFr (Onward False Late) (onEng (nextHandshake env.toEnv mtFinished) : P CSt (Option Body)) :=
    .hears hf rfl (by decide)
  have h2 := fun x => computeVerify_vfr (env := env) hf x
  have h3 := installApplication_vfr (env := env) hf
  unfold C13.awaitFinished
  simp only [bind_eq, pure_eq]
  vfr hf
  all_goals exact h2 _

theorem step_awaitFinished : StepOk env .awaitFinished (C13.awaitFinished env) := by
  intro s hst hg
  have hv := (awaitFinished_vfr (env := env)).wp s
  have hsucc : wp (C13.awaitFinished env) s
      (fun new s' => new = .awaitFinished ∨
        (new = .sendCertificate ∨ new = .sendFinished) ∧ ∃ v, Took (Params env) env true s' v)
      (fun _ _ => True) := by
    obtain ⟨ms, hms, hpa⟩ := hg
    unfold C13.awaitFinished
    simp only [bind_eq, pure_eq, wp_bind, wp_get]
    refine wp_orFatal_of (fun x hx => ?_) trivial
    refine wp_mono (computeVerify_ok x s) ?_ (fun _ _ _ => trivial)
    rintro v s1 ⟨hs1, cs, hcs, hvd⟩
    rw [hs1, wp_onEng]
    refine wp_mono (nextHandshake_ok env.toEnv mtFinished s.eng rfl) ?_ (fun _ _ _ => trivial)
    rintro m e ⟨hgr, ⟨rfl, rfl⟩ | ⟨b, seq, body, rfl, -, hp, ht⟩⟩
    · exact .inl rfl
    · obtain ⟨cs', w, k1, rfl, k2⟩ := parseBody_finished hp
      rw [hcs] at k1
      cases k1
      dsimp only
      rw [wp_bind]
      refine wp_check_of (fun hc => ?_) trivial
      have hc : w = v := by simpa using hc
      subst hc
      rw [wp_bind, wp_onEng]
      refine wp_mono (to_wp (R := fun e' => Grow e e' ∧ Hushed e e') ⟨advancePeerSeq_grow e, advancePeerSeq_hushed e⟩) ?_
        (fun _ _ _ => trivial)
      rintro _ e1 ⟨g1, g2⟩
      rw [wp_bind]
      refine wp_mono (installApplication_ok _) ?_ (fun _ _ _ => trivial)
      rintro _ s' ⟨cs', hs, c, sv, ex, e2, j1, j2, j3, j4, j5, j6, rfl⟩
      rw [transcriptOf_bytes, hms, ← flat_append] at ht
      have htr : e2.transcript = flat (ms ++ [⟨20, body⟩]) := j6.trans (g2.transcript.trans ht)
      have hsu : e2.suite = s.eng.suite := j5.trans (g1.suite.trans hgr.suite)
      have hcs' : cs' = cs := by
        have : some cs' = some cs := j1.symm.trans (g1.suite.trans (hgr.suite.trans hcs))
        cases this; rfl
      subst hcs'
      refine .inr ⟨by split <;> simp, w, ms, cs', x, body, ?_, hsu.trans hcs, hx, k2, ?_, ?_, fun _ => ?_⟩
      · obtain ⟨p1, p2, p3⟩ := hpa
        refine ⟨?_, p2, p3⟩
        unfold Hello at p1 ⊢
        rw [show ({ s with eng := e2 } : Ses CSt).eng.suite = s.eng.suite from hsu]
        exact p1
      · rw [← hms]; exact hvd
      · rw [show ({ s with eng := e2 } : Ses CSt).eng.transcript = _ from htr]
        exact List.prefix_rfl
      · refine ⟨cs', hs, c, sv, ex, hsu.trans hcs, j2, ?_, j4⟩
        have j3 : env.deriveApp cs' hs e1.transcript = some (c, sv, ex) := j3
        rw [show e1.transcript = flat (ms ++ [⟨20, body⟩]) from g2.transcript.trans ht] at j3
        exact j3
  refine wp_mono (wp_and hv hsucc) ?_ ?_
  · rintro new s' ⟨⟨g1, g2⟩, h⟩
    refine ⟨g2, ?_, .inl g1.told⟩
    rcases h with rfl | ⟨rfl | rfl, h⟩
    · exact Whole.onward g1 hg
    · exact ⟨Whole.onward g1 hg, h⟩
    · exact ⟨Whole.onward g1 hg, h⟩
  · rintro _ s' ⟨⟨g1, g2⟩, -⟩
    exact ⟨g2, at_st hst <| Whole.onward g1 hg, g1.told⟩

theorem step_sendFinished : StepOk env .sendFinished (C13.sendFinished env) := by
  intro s hst hg
  unfold C13.sendFinished
  simp only [bind_eq, wp_bind, wp_get]
  suffices rest : ∀ e : Eng, e.suite = s.eng.suite → e.transcript = s.eng.transcript → e.exporter = s.eng.exporter →
      wp (M.bind (orFatal s.clientHs .invalidState) fun secret => M.bind (computeVerify env secret) fun v =>
        M.bind (onEng (createHandshake env.toEnv mtFinished v)) fun _ =>
          announceConnected env releaseAppData CSt.awaitApplicationData) { s with eng := e }
      (fun new s' => s'.st = s.st ∧ Stage env new s' ∧ (toTell s' = toTell s ∨
        new = .awaitApplicationData ∧ Done env s' ∧ ∃ l, toTell s' = toTell s ++ l ∧ Announced env s' l))
      (fun _ s' => s'.st = s.st ∧ Stage env s.st s' ∧ toTell s' = toTell s) by
    by_cases hc : s.authRequested = true
    · rw [if_pos hc]
      exact rest s.eng rfl rfl rfl
    · rw [if_neg hc, wp_bind, wp_onEng']
      exact rest _ rfl rfl rfl
  intro e he1 he2 he3
  simp only [wp_bind]
  have ho : Onward True Late s { s with eng := e } := .onEng (.same he1 he3 he2)
  refine wp_orFatal_of (fun x hx => ?_) ⟨rfl, at_st hst <| stage_onward (st := .sendFinished) ho hg, rfl⟩
  refine wp_mono (computeVerify_ok x _) ?_ (fun _ _ h => by
    rw [h]; exact ⟨rfl, at_st hst <| stage_onward (st := .sendFinished) ho hg, rfl⟩)
  rintro v _ ⟨rfl, cs, hcs, hvd⟩
  rw [wp_onEng]
  have hcr := createHandshake_msg env.toEnv mtFinished v e
  refine wp_mono (to_wp (R := fun e' => e'.transcript = e.transcript ++ flat [⟨mtFinished, v⟩] ∧ e'.exporter = e.exporter ∧
    e'.suite = e.suite) hcr) ?_ ?_
  · rintro _ e2 ⟨k1, k2, k3⟩
    have ho2 : Onward True Late s { s with eng := e2 } := ho.trans (.onEng ⟨k3, fun _ => k2, _, k1, fun m hm => by
      rw [List.mem_singleton.mp hm]; show Late mtFinished; decide⟩)
    refine wp_mono (announce_right (env := env) releaseAppData CSt.awaitApplicationData { s with eng := e2 } ?_
      (fun _ => .same rfl rfl rfl)) ?_ (fun _ _ h => h.elim)
    · rw [show ({ s with eng := e2 } : Ses CSt).eng.suite = some cs from k3.trans hcs]; nofun
    rintro new s' ⟨rfl, e3, l, e4, e5, e6⟩
    have hd : Done env s' := by
      refine Done.onward e6 (Done.shown s'.events ?_)
      obtain ⟨⟨ms, hms, hpa⟩, w, htk⟩ := hg
      refine ⟨⟨w, ?_⟩, v, ?_⟩
      · exact Took.onward (s := s) (fun _ => .onward ho2) ho2 htk
      · refine ⟨ms, cs, x, hpa.onward ho2, k3.trans hcs, hx, ?_, ?_, nofun⟩
        · rw [← hms, ← he2]; exact hvd
        · rw [show ({ s with eng := e2 } : Ses CSt).eng.transcript = _ from k1, he2, hms, ← flat_append]
          exact List.prefix_rfl
    exact ⟨e3, hd, .inr ⟨rfl, hd, l, e4, e5⟩⟩
  · rintro _ e2 ⟨k1, k2, k3⟩
    have ho2 : Onward True Late s { s with eng := e2 } := ho.trans (.onEng ⟨k3, fun _ => k2, _, k1, fun m hm => by
      rw [List.mem_singleton.mp hm]; show Late mtFinished; decide⟩)
    exact ⟨rfl, at_st hst <| stage_onward (st := .sendFinished) ho2 hg, rfl⟩

theorem plan : Plan C13.role env (Stage env) (Done env) where
  onward h g := stage_onward h g
  done h g := Done.onward h g
  shown l h := stage_shown l h
  doneShown l h := Done.shown l h
  closed := trivial
  half h := h
  step := by
    intro s h1 h2 h3 hg
    show wp (C13.step env s.st) s _ _
    have fr : ∀ (st : CSt), s.st = st → VFr (Onward True Late) (C13.step env st) →
        (∀ x ∈ C13.succ st, ∀ s', Stage env st s' → Stage env x s') → wp (C13.step env s.st) s
        (fun new s' => s'.st = s.st ∧ Stage env new s' ∧ (toTell s' = toTell s ∨
          new = .awaitApplicationData ∧ Done env s' ∧ ∃ l, toTell s' = toTell s ++ l ∧ Announced env s' l))
        (fun _ s' => s'.st = s.st ∧ Stage env s.st s' ∧ toTell s' = toTell s) := by
      intro st hst hv hs
      have hg : Stage env s.st s := hg
      rw [hst] at hg ⊢
      have := frame_step (Stage := Stage env) (Q := fun new s' => new = .awaitApplicationData ∧ Done env s' ∧
        ∃ l, toTell s' = toTell s ++ l ∧ Announced env s' l) hv
        (C13.step_succ env st) hst (fun s' h => stage_onward h hg) hs
      rw [hst] at this
      exact this
    have sp : ∀ (st : CSt), s.st = st → StepOk env st (C13.step env st) → wp (C13.step env s.st) s
        (fun new s' => s'.st = s.st ∧ Stage env new s' ∧ (toTell s' = toTell s ∨
          new = .awaitApplicationData ∧ Done env s' ∧ ∃ l, toTell s' = toTell s ++ l ∧ Announced env s' l))
        (fun _ s' => s'.st = s.st ∧ Stage env s.st s' ∧ toTell s' = toTell s) := by
      intro st hst hs
      have hg : Stage env s.st s := hg
      have := hs s hst (hst ▸ hg)
      rw [hst] at this ⊢
      exact this
    have hf := Onward.over (St := CSt) (X := True) (T := Late)
    cases hst : s.st with
    | sendClientHello => rw [← hst]; exact sp _ hst step_sendClientHello
    | awaitServerHello => rw [← hst]; exact sp _ hst step_awaitServerHello
    | awaitEncryptedExtensions => rw [← hst]; exact sp _ hst step_awaitEncryptedExtensions
    | awaitCertificateRequest =>
      rw [← hst]
      refine fr _ hst awaitCertificateRequest_vfr fun x hx s' h => ?_
      simp only [C13.succ, List.mem_cons, List.not_mem_nil, or_false] at hx
      rcases hx with rfl | rfl <;> exact h
    | awaitCertificate =>
      rw [← hst]
      refine fr _ hst awaitCertificate_vfr fun x hx s' h => ?_
      simp only [C13.succ, List.mem_cons, List.not_mem_nil, or_false] at hx
      rcases hx with rfl | rfl <;> exact h
    | awaitCertificateVerify =>
      rw [← hst]
      refine fr _ hst (awaitCertificateVerify_vfr hf (by decide) _ _ _) fun x hx s' h => ?_
      simp only [C13.succ, List.mem_cons, List.not_mem_nil, or_false] at hx
      rcases hx with rfl | rfl <;> exact h
    | awaitFinished => rw [← hst]; exact sp _ hst step_awaitFinished
    | sendCertificate =>
      rw [← hst]
      refine fr _ hst sendCertificate_vfr fun x hx s' h => ?_
      simp only [C13.succ, List.mem_cons, List.not_mem_nil, or_false] at hx
      rcases hx with rfl | rfl <;> exact h
    | sendCertificateVerify =>
      rw [← hst]
      refine fr _ hst sendCertificateVerify_vfr fun x hx s' h => ?_
      simp only [C13.succ, List.mem_cons, List.not_mem_nil, or_false] at hx
      rcases hx with rfl; exact h
    | sendFinished => rw [← hst]; exact sp _ hst step_sendFinished
    | awaitApplicationData => exact absurd hst h1
    | halfClosedLocal => exact absurd hst h2
    | closed => exact absurd hst h3

end Client
end Verif.Props.Agree13

import Verif.Lemmas.Random12
import Verif.Props.Shake12
/-!
# Exported SRTP keying material, DTLS 1.2 (C61)
-/
namespace Verif.Props.Keying12
open Verif Wire Window Timer Aead M E12

/-! ## Statement -/

/-- Both randoms of a session, the client's first. -/
def Randoms {St : Type} (isClient : Bool) (s : Ses St) : Option Bytes × Option Bytes :=
  if isClient then (s.random, s.peerRandom) else (s.peerRandom, s.random)

/-- `km` and `p` are what the suite, SRTP profile, master secret and randoms of the session give. -/
def KmOf {St : Type} (env : PEnv) (isClient : Bool) (s : Ses St) (km : Bytes) (p : Nat) : Prop :=
  ∃ cs m cr sr, s.eng.suite = some cs ∧ s.srtp = some p ∧ s.eng.master = some m ∧
    Randoms isClient s = (some cr, some sr) ∧ env.srtpKeys cs p m cr sr = some km

/-- The event an output reports, where it is Connected or keying material. -/
def tells : Output → Option Event
  | .connected => some .connected
  | .keyingMaterial km p => some (.keyingMaterial km p)
  | _ => none

/-- Connected and keying material, reported and still waiting to be, in order. -/
def story {St : Type} (os : List Output) (s : Ses St) : List Event :=
  os.filterMap tells ++ s.events.filter (· ≠ .peerCert)

/-- Connected and then the keying material, if there is any. -/
def Announced {St : Type} (env : PEnv) (isClient : Bool) (s : Ses St) (l : List Event) : Prop :=
  l = [.connected] ∧ (∀ km p, ¬ KmOf env isClient s km p) ∨
  ∃ km p, l = [.connected, .keyingMaterial km p] ∧ KmOf env isClient s km p

/-! ## Invariant -/

theorem KmOf.still {St : Type} {env : PEnv} {b : Bool} {s s' : Ses St} {km : Bytes} {p : Nat} (h : KmOf env b s km p)
    (hl : Still s s') : KmOf env b s' km p := by
  obtain ⟨cs, m, cr, sr, h1, h2, h3, h4, h5⟩ := h
  refine ⟨cs, m, cr, sr, hl.suite.trans h1, hl.srtp.trans h2, hl.master.trans h3, ?_, h5⟩
  unfold Randoms at h4 ⊢
  rw [hl.peerRandom]
  split at h4
  · rw [if_pos ‹_›]
    rw [Prod.mk.injEq] at h4
    rw [hl.random _ h4.1, h4.2]
  · rw [if_neg ‹_›]
    rw [Prod.mk.injEq] at h4
    rw [hl.random _ h4.2, h4.1]

theorem KmOf.back {St : Type} {env : PEnv} {b : Bool} {s s' : Ses St} {km : Bytes} {p : Nat} (h : KmOf env b s' km p)
    (hl : Still s s') (hr : s.random ≠ none) : KmOf env b s km p := by
  obtain ⟨cs, m, cr, sr, h1, h2, h3, h4, h5⟩ := h
  refine ⟨cs, m, cr, sr, hl.suite.symm.trans h1, hl.srtp.symm.trans h2, hl.master.symm.trans h3, ?_, h5⟩
  have hs : s'.random = s.random := by
    cases hq : s.random with
    | none => exact absurd hq hr
    | some r => exact hl.random r hq
  unfold Randoms at h4 ⊢
  rw [← hl.peerRandom, ← hs]
  exact h4

theorem Announced.still {St : Type} {env : PEnv} {b : Bool} {s s' : Ses St} {l : List Event}
    (h : Announced env b s l) (hl : Still s s') (hr : s.random ≠ none) : Announced env b s' l := by
  rcases h with ⟨h1, h2⟩ | ⟨km, p, h1, h2⟩
  · exact .inl ⟨h1, fun km p g => h2 km p (g.back hl hr)⟩
  · exact .inr ⟨km, p, h1, h2.still hl⟩

/-- Nothing is announced, or the handshake is over and what is announced is right. -/
def Right (R : Role) (env : PEnv) (b : Bool) (os : List Output) (s : Ses R.St) : Prop :=
  story os s = [] ∨ (s.st = R.app ∨ s.st = R.closed) ∧ s.random ≠ none ∧ Announced env b s (story os s)

/-- What a step into the connected state announces. -/
def Announces (R : Role) (env : PEnv) (b : Bool) (I : Ses R.St → Prop) : Prop :=
  ∀ (s : Ses R.St), I s → s.st ≠ R.app → wp (R.step env s.st) s (fun new s' => new = R.app →
    s'.random ≠ none ∧ ∃ l, s'.events = s.events ++ l ∧ Announced env b s' l) (fun _ _ => True)

theorem Right.still {R : Role} {env : PEnv} {b : Bool} {os os' : List Output} {s s' : Ses R.St}
    (h : Right R env b os s) (hl : Still s s')
    (h1 : s'.st = s.st ∨ s'.st = R.closed) (h2 : story os' s' = story os s) : Right R env b os' s' := by
  unfold Right at h ⊢
  rw [h2]
  refine h.imp_right fun ⟨g1, g2, g3⟩ => ⟨?_, fun g => ?_, g3.still hl g2⟩
  · rcases h1 with h1 | h1
    · rw [h1]; exact g1
    · exact .inr h1
  · cases hq : s.random with
    | none => exact g2 hq
    | some r => rw [hl.random r hq] at g; cases g

theorem right_stable {R : Role} {env : PEnv} {b : Bool} {post : R.St → Bool} {I : Ses R.St → Prop}
    (hs : ShowRule R env post) (hr : RoleOk R env) (hk : RandomKept R env) (ha : Announces R env b I) :
    HStable R env (fun _ => True) I (Right R env b) where
  packet os s p _ h := h.still (.eng _ ((inFrame_grow env.toEnv).parsePacket p s.eng)
    ((inFrame_sameT env.toEnv).parsePacket p s.eng)) (.inl rfl) rfl
  note os s n _ h := by
    unfold noteTime
    split
    · exact h.still (.mod (.mod (.mod rfl rfl rfl rfl rfl rfl rfl rfl) rfl rfl) rfl rfl) (.inl rfl) rfl
    · rename_i hn
      refine h.still ⟨⟨⟨fun r hr => ?_, rfl, rfl, rfl, rfl, rfl, ⟨[], rfl⟩,
        ⟨[], (List.append_nil _).symm⟩⟩, rfl, rfl⟩, rfl, rfl, rfl⟩ (.inl rfl) rfl
      rw [hn] at hr; cases hr
  timeout os s n _ h := h.still (.eng _ (handleTimeout_grow env.toEnv n s.eng) (handleTimeout_sameT ..)) (.inl rfl) rfl
  step os s hI h := by
    have h2 := hs.step s
    have hst : wp (R.step env s.st) s (fun _ s' => s'.random = s.random ∧ s'.st = s.st)
        (fun _ s' => s'.random = s.random ∧ s'.st = s.st) :=
      to_wp (R := fun s' : Ses R.St => s'.random = s.random ∧ s'.st = s.st) (hk _ _)
    by_cases hap : s.st = R.app
    · have h3 : wp (R.step env s.st) s (fun _ s' => Still s s' ∧ s'.st = s.st)
          (fun _ s' => Still s s' ∧ s'.st = s.st) := by
        rw [hap, hr.app]
        have := SFr.wp (app_still (env := env) R.app R.closed) s
        rwa [hap] at this
      have hev : ∀ {new : R.St} {s' : Ses R.St}, Move R.app R.closed post s.st new (shown s) (shown s') →
          s'.events = s.events ∧ (new = R.app ∨ new = R.closed) := by
        intro new s' g
        have hx : s'.events = (shown s').events := rfl
        rw [hx]
        generalize shown s' = x at g
        cases g with
        | same _ _ x => exact ⟨rfl, x hap⟩
        | cert _ _ x => exact absurd hap x
        | ccs _ x => exact absurd hap x
        | connect _ _ x => exact absurd hap x
      refine wp_mono (wp_and h2 h3) ?_ ?_
      · rintro new s' ⟨g1, g2, g3⟩
        obtain ⟨k1, k2⟩ := hev g1
        refine h.still (g2.put _) ?_ (by unfold story; rw [show s'.events = s.events from k1])
        rcases k2 with k2 | k2
        · exact .inl (k2.trans hap.symm)
        · exact .inr k2
      · rintro _ s' ⟨⟨_, g1⟩, g2, g3⟩
        exact h.still g2 (.inl g3) (by unfold story; rw [show s'.events = s.events from (hev g1).1])
    · by_cases hc : s.st = R.closed
      · have h3 : wp (R.step env s.st) s (fun new s' => new = R.closed ∧ s' = s) (fun _ _ => False) := by
          rw [hc, hr.closed]
          exact ⟨rfl, rfl⟩
        refine wp_mono h3 ?_ (fun _ _ h => h.elim)
        rintro new s' ⟨rfl, rfl⟩
        exact h.still ((Still.refl _).put _) (.inr rfl) rfl
      · have hno : story os s = [] := by
          rcases h with h | ⟨g | g, _⟩
          · exact h
          · exact absurd g hap
          · exact absurd g hc
        have hev : ∀ {new : R.St} {s' : Ses R.St}, Move R.app R.closed post s.st new (shown s) (shown s') →
            new ≠ R.app → story os s' = [] := by
          intro new s' g hn
          have key : s'.events = s.events ∨ s'.events = s.events ++ [.peerCert] := by
            have hx : s'.events = (shown s').events := rfl
            have hy : s.events = (shown s).events := rfl
            rw [hx, hy]
            generalize shown s' = x at g
            cases g with
            | same => exact .inl rfl
            | cert => exact .inr rfl
            | ccs => exact .inl rfl
            | connect x => exact absurd x hn
          unfold story at hno ⊢
          rcases key with g | g
          · rw [g]; exact hno
          · rw [g, List.filter_append, ← List.append_assoc, hno]; rfl
        refine wp_mono (wp_and h2 (wp_and (ha s hI hap) hst)) ?_ ?_
        · rintro new s' ⟨g1, g2, g3, g4⟩
          by_cases hn : new = R.app
          · obtain ⟨k1, l, k2, k3⟩ := g2 hn
            have hl : story os s' = l := by
              unfold story at hno ⊢
              rw [k2, List.filter_append, ← List.append_assoc, hno]
              rcases k3 with ⟨rfl, _⟩ | ⟨km, p, rfl, _⟩
              · decide
              · rfl
            refine .inr ⟨.inl hn, k1, ?_⟩
            have : story os { s' with st := new } = story os s' := rfl
            rw [this, hl]
            exact k3.still ((Still.refl _).put _) k1
          · exact .inl (hev g1 hn)
        · rintro _ s' ⟨⟨_, g1⟩, _, g3, g4⟩
          exact .inl (hev g1 hap)
  send os s d _ _ h := by
    apply of_wp (m := sendM R env d) (R := fun s' : Ses R.St => Right R env b os s')
    unfold sendM
    simp only [bind_eq, wp_bind, wp_get]
    split
    · exact h
    · split
      · exact h.still (.mod (.mod (.mod rfl rfl rfl rfl rfl rfl rfl rfl) rfl rfl) rfl rfl) (.inl rfl) rfl
      · rw [wp_state]
        exact h.still (.eng _ (createRecord_grow ..) (send_transcript ..)) (.inl rfl) rfl
  close os s _ h := by
    apply of_wp (m := closeM R env) (R := fun s' : Ses R.St => Right R env b os s')
    unfold closeM sendCloseNotify
    simp only [bind_eq, pure_eq, wp_bind, wp_get]
    split
    · exact h
    · split
      · simp only [wp_bind, wp_onEng', wp_modify]
        exact h.still (.mod (.mod (.mod rfl rfl rfl rfl rfl rfl rfl rfl) rfl rfl) rfl rfl) (.inr rfl) rfl
      · simp only [wp_bind, wp_modify, wp_onEng]
        have hg := createRecord_grow env.toEnv ctAlert 1 false false [1, 0] s.eng
        have hc := send_transcript env.toEnv ctAlert 1 false false [1, 0] s.eng
        have hw := wp_state (m := createRecord env.toEnv ctAlert 1 false false [1, 0]) (s := s.eng)
          (R := fun e => Grow s.eng e ∧ e.transcript = s.eng.transcript) |>.mpr ⟨hg, hc⟩
        refine wp_mono hw ?_ ?_
        · rintro _ e ⟨g1, g3⟩
          exact h.still ((Still.eng s g1 g3).put _) (.inr rfl) rfl
        · rintro _ e ⟨g1, g3⟩
          exact h.still (.eng _ g1 g3) (.inl rfl) rfl
  poll os s n _ h := by
    unfold pollM
    split
    · rename_i e rest he
      refine h.still (.mod (.mod (.mod rfl rfl rfl rfl rfl rfl rfl rfl) rfl rfl) rfl rfl) (.inl rfl) ?_
      unfold story
      rw [he, List.filterMap_append, List.append_assoc]
      congr 1
      cases e with
      | connected => rfl
      | keyingMaterial km p => rfl
      | peerCert =>
        have : ∀ cs, [eventOutput .peerCert n cs].filterMap tells = [] := by
          intro cs
          unfold eventOutput
          cases cs with
          | nil => rfl
          | cons c _ => dsimp only; split <;> rfl
        dsimp only
        rw [this]
        rfl
    · refine h.still (.eng _ (pollOutput_grow ..) (pollOutput_sameT ..)) (.inl rfl) ?_
      unfold story
      rw [List.filterMap_append]
      exact congrArg (· ++ _) (List.append_nil _)

/-! ## The step that announces -/

theorem announce_right {St : Type} (env : PEnv) (b : Bool) (app : St) (f g : Ses St → Option Bytes)
    (hfg : ∀ s, (f s, g s) = Randoms b s) (s : Ses St) :
    wp (announceConnected env app f g) s
      (fun _ s' => ∃ l, s'.events = s.events ++ l ∧ Announced env b s' l) (fun _ _ => True) := by
  unfold announceConnected
  simp only [bind_eq, pure_eq, wp_bind, wp_onEng', wp_modify, wp_get]
  split
  · rename_i hsr
    simp only [wp_bind, wp_onEng', wp_pure]
    refine ⟨_, rfl, .inl ⟨rfl, fun km p h => ?_⟩⟩
    obtain ⟨_, _, _, _, _, h, _⟩ := h
    have hsr : s.srtp = none := hsr
    have h : s.srtp = some p := h
    rw [hsr] at h
    cases h
  · rename_i p0 hsr
    rw [wp_bind]
    refine wp_orPanic_of (fun cs hcs => ?_) trivial
    split
    · rename_i m cr sr hm hcr hsr'
      have hrs := hfg { s with eng := flightStop s.eng, events := s.events ++ [.connected] }
      rw [hcr, hsr'] at hrs
      split
      · rename_i km hkm
        simp only [wp_bind, wp_modify, wp_onEng', wp_pure]
        exact ⟨_, List.append_assoc _ _ _, .inr ⟨km, p0, rfl, cs, m, cr, sr, hcs, hsr, hm, hrs.symm, hkm⟩⟩
      · rename_i hkm
        simp only [wp_bind, wp_onEng', wp_pure]
        refine ⟨_, rfl, .inl ⟨rfl, fun km p h => ?_⟩⟩
        obtain ⟨cs', m', cr', sr', h1, h2, h3, h4, h5⟩ := h
        have h1 := (show some cs = some cs' from hcs.symm.trans h1)
        have h2 := (show some p0 = some p from hsr.symm.trans h2)
        have h3 := (show some m = some m' from hm.symm.trans h3)
        have h4 := (show (some cr, some sr) = (some cr', some sr') from hrs.trans h4)
        cases h1; cases h2; cases h3; cases h4
        rw [hkm] at h5
        cases h5
    · rename_i hno
      simp only [wp_bind, wp_onEng', wp_pure]
      refine ⟨_, rfl, .inl ⟨rfl, fun km p h => ?_⟩⟩
      obtain ⟨cs', m', cr', sr', h1, h2, h3, h4, h5⟩ := h
      have hrs := (hfg { s with eng := flightStop s.eng, events := s.events ++ [.connected] }).trans h4
      rw [Prod.mk.injEq] at hrs
      exact hno m' cr' sr' h3 hrs.1 hrs.2

theorem client_announces (env : PEnv) : Announces C12.role env true (fun s => ClientDrawn s.random s.st) := by
  refine (?_ : ∀ s : Ses CSt, ClientDrawn s.random s.st → s.st ≠ .awaitApplicationData →
    wp (C12.step env s.st) s (fun new s' => new = .awaitApplicationData →
    s'.random ≠ none ∧ ∃ l, s'.events = s.events ++ l ∧ Announced env true s' l) (fun _ _ => True))
  intro s hI hap
  have hk : wp (C12.step env s.st) s (fun _ s' => s'.random = s.random) (fun _ _ => True) :=
    wp_mono (to_wp (R := fun s' : Ses CSt => s'.random = s.random) (C12.randomKept env s.st s).1) (fun _ _ h => h)
      (fun _ _ _ => trivial)
  by_cases hst : s.st = .awaitFinished
  · rw [hst] at hI hk ⊢
    have hw : wp (C12.awaitFinished env) s (fun new s' => new = .awaitApplicationData →
        ∃ l, s'.events = s.events ++ l ∧ Announced env true s' l) (fun _ _ => True) := by
      unfold C12.awaitFinished
      simp only [bind_eq, pure_eq, wp_bind, wp_onEng]
      refine wp_mono (to_wp (R := fun _ => True) trivial) ?_ (fun _ _ _ => trivial)
      rintro v e -
      refine wp_mono (to_wp (R := fun _ => True) trivial) ?_ (fun _ _ _ => trivial)
      rintro m e -
      split
      · exact nofun
      · rw [wp_bind]
        refine wp_check_of (fun hc => ?_) trivial
        refine wp_mono (announce_right env true CSt.awaitApplicationData (·.random) (·.peerRandom) (fun _ => rfl) _)
          (fun _ _ h _ => h) (fun _ _ _ => trivial)
      · trivial
    refine wp_mono (wp_and hw hk) ?_ (fun _ _ _ => trivial)
    rintro new s' ⟨g1, g2⟩ hn
    refine ⟨?_, g1 hn⟩
    rw [g2]
    rcases hI with g | g | g
    · cases g
    · cases g
    · exact g
  · refine wp_mono (Rets.wp (C12.step_next (env := env) s.st) s) ?_ (fun _ _ _ => trivial)
    rintro new s' hn rfl
    exfalso
    revert hn hap hst
    generalize s.st = st
    cases st <;> decide

theorem server_announces (env : PEnv) : Announces S12.role env false (fun s => ServerDrawn s.random s.st) := by
  refine (?_ : ∀ s : Ses SSt, ServerDrawn s.random s.st → s.st ≠ .awaitApplicationData →
    wp (S12.step env s.st) s (fun new s' => new = .awaitApplicationData →
    s'.random ≠ none ∧ ∃ l, s'.events = s.events ++ l ∧ Announced env false s' l) (fun _ _ => True))
  intro s hI hap
  have hk : wp (S12.step env s.st) s (fun _ s' => s'.random = s.random) (fun _ _ => True) :=
    wp_mono (to_wp (R := fun s' : Ses SSt => s'.random = s.random) (S12.randomKept env s.st s).1) (fun _ _ h => h)
      (fun _ _ _ => trivial)
  by_cases hst : s.st = .sendFinished
  · rw [hst] at hI hk ⊢
    have hw : wp (S12.sendFinished env) s (fun new s' => new = .awaitApplicationData →
        ∃ l, s'.events = s.events ++ l ∧ Announced env false s' l) (fun _ _ => True) := by
      unfold S12.sendFinished
      simp only [bind_eq, wp_bind, wp_onEng]
      refine wp_mono (to_wp (R := fun _ => True) trivial) ?_ (fun _ _ _ => trivial)
      rintro v e -
      refine wp_mono (to_wp (R := fun _ => True) trivial) ?_ (fun _ _ _ => trivial)
      rintro m e -
      refine wp_mono (announce_right env false SSt.awaitApplicationData (·.peerRandom) (·.random) (fun _ => rfl) _)
        (fun _ _ h _ => h) (fun _ _ _ => trivial)
    refine wp_mono (wp_and hw hk) ?_ (fun _ _ _ => trivial)
    rintro new s' ⟨g1, g2⟩ hn
    refine ⟨?_, g1 hn⟩
    rw [g2]
    rcases hI with g | g | g | g
    · cases g
    · cases g
    · cases g
    · exact g
  · refine wp_mono (Rets.wp (S12.step_next (env := env) s.st) s) ?_ (fun _ _ _ => trivial)
    rintro new s' hn rfl
    exfalso
    revert hn hap hst
    generalize s.st = st
    cases st <;> decide

/-! ## Results -/

/-- **C61, client.** Connected and keying material, reported or waiting to be, are: nothing; or Connected
once; or Connected once and directly after it keying material once. There is keying material exactly when
an SRTP profile was negotiated and the derivation gives some, and then it is that profile and what suite,
master secret and both randoms give. -/
theorem client_keying {env : PEnv} {cfg : Cfg} {s0 : Ses CSt} (h : Shake12.Client.Begins env cfg s0) (cs : List Call) :
    let r := run C12.role env s0 cs
    story (outputs r.1) r.2 = [] ∨ Announced env true r.2 (story (outputs r.1) r.2) := by
  have h0 : ClientDrawn s0.random s0.st ∧ story [] s0 = [] := by
    cases h with
    | plain now => exact ⟨.inl rfl, rfl⟩
    | hybrid r fr now => exact ⟨.inr (.inr nofun), rfl⟩
  have := HStable.run (client_drawn env) (right_stable C12.showRule (C12.roleOk env) (C12.randomKept env)
    (client_announces env)) [] s0 cs (fun _ _ => trivial) h0.1 (.inl h0.2)
  exact this.imp_right fun h => h.2.2

/-- **C61, server.** -/
theorem server_keying (env : PEnv) (cfg : Cfg) (now : Nat) (cs : List Call) :
    let r := run S12.role env (S12.start env cfg now) cs
    story (outputs r.1) r.2 = [] ∨ Announced env false r.2 (story (outputs r.1) r.2) := by
  have := HStable.run (server_drawn env) (right_stable S12.showRule (S12.roleOk env) (S12.randomKept env)
    (server_announces env)) [] (S12.start env cfg now) cs (fun _ _ => trivial) (.inl rfl) (.inl rfl)
  exact this.imp_right fun h => h.2.2

end Verif.Props.Keying12

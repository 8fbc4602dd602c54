import Verif.Lemmas.Phase13
/-!
# The cipher suite of a DTLS 1.3 session
-/
namespace Verif.E13
open Verif Wire Window Timer Aead M
open Verif.E12 (Call)

/-- Every suite the configuration allows is one of the provider's: `dtls13_cipher_suites` filters the
provider's list (`src/config.rs:260-272`), and `suite_provider` searches it
(`src/dtls13/engine.rs:1609-1619`). -/
def SuitesKnown (env : Env) : Prop := ∀ cs, env.allowed.contains cs = true → (env.suiteTag cs).isSome = true

/-- The suite is an allowed one, and it is there once it is needed. -/
structure SuiteInv (env : Env) (s : Eng) : Prop where
  ok : ∀ cs, s.suite = some cs → env.allowed.contains cs = true
  enc : s.peerEnc = true → s.suite ≠ none
  rel : s.release = true → s.suite ≠ none

theorem SuiteInv.tag {env : Env} {s : Eng} (hk : SuitesKnown env) (h : SuiteInv env s) (hs : s.suite ≠ none) :
    ∃ suite t, s.suite = some suite ∧ s.tag env = some t := by
  cases hx : s.suite with
  | none => exact absurd hx hs
  | some cs =>
    have := hk cs (h.ok cs hx)
    cases ht : env.suiteTag cs with
    | none => rw [ht] at this; cases this
    | some t => exact ⟨cs, t, rfl, by unfold Eng.tag; rw [hx]; exact ht⟩

theorem openedSt_suite (s : Eng) (b r k ep sq p) : (openedSt s b r k ep sq p).suite = s.suite ∧
    (openedSt s b r k ep sq p).peerEnc = s.peerEnc ∧ (openedSt s b r k ep sq p).release = s.release := by
  unfold openedSt noteOpened Eng.replayUpdate
  split <;> exact ⟨rfl, rfl, rfl⟩

theorem SuiteInv.step {env : Env} {keys poll : Bool} {s s' : Eng} {a a' : Hand}
    (g : RStep env keys poll (s, a) (s', a')) (hn : keys = true → s.suite ≠ none) (h : SuiteInv env s) :
    SuiteInv env s' := by
  have same : ∀ t : Eng, t.suite = s.suite → t.peerEnc = s.peerEnc → t.release = s.release → SuiteInv env t :=
    fun t h1 h2 h3 => ⟨by rw [h1]; exact h.ok, by rw [h1, h2]; exact h.enc, by rw [h1, h3]; exact h.rel⟩
  cases g with
  | other g =>
    exact same _ (congrArg RxPart.suite g) (congrArg RxPart.peerEnc g) (congrArg RxPart.release g)
  | noted ho => exact same _ (openedSt_suite ..).1 (openedSt_suite ..).2.1 (openedSt_suite ..).2.2
  | opened ho hr => exact same _ (openedSt_suite ..).1 (openedSt_suite ..).2.1 (openedSt_suite ..).2.2
  | enable i hk _ _ => exact ⟨h.ok, fun _ => hn hk, h.rel⟩
  | release hk _ => exact ⟨h.ok, h.enc, fun _ => hn hk⟩
  | retain hk _ => exact ⟨h.ok, h.enc, fun _ => hn hk⟩
  | suite cs hc => exact ⟨fun x hx => (Option.some.inj hx) ▸ hc, fun _ => nofun, fun _ => nofun⟩
  | _ => exact ⟨h.ok, h.enc, h.rel⟩

theorem suite_step {env : Env} {keys poll : Bool} {s s' : Eng} {a a' : Hand}
    (g : RStep env keys poll (s, a) (s', a')) (h : s.suite ≠ none) : s'.suite ≠ none := by
  cases g with
  | other g => rw [show s'.suite = s.suite from congrArg RxPart.suite g]; exact h
  | noted ho => rw [(openedSt_suite ..).1]; exact h
  | opened ho hr => rw [(openedSt_suite ..).1]; exact h
  | suite cs hc => exact nofun
  | _ => exact h

/-- By phase: from the handshake keys on there is a suite. -/
def SuiteAt (env : Env) (p : Nat) (s : Eng) : Prop := SuiteInv env s ∧ (p ≠ 0 → s.suite ≠ none)

theorem suiteAt_phases (env : Env) : Phases env (SuiteAt env) (SuiteAt env) := by
  refine phases_rx (P := fun p s _ => SuiteAt env p s) ?_ ?_ (fun _ _ _ h => h)
  · intro p _ poll s s' a a' g h
    exact ⟨h.1.step g nofun, fun hp => suite_step g (h.2 hp)⟩
  · intro e h
    exact ⟨⟨h.1.ok, h.1.enc, h.1.rel⟩, fun hp => absurd rfl hp⟩

theorem suiteAt_enable {env : Env} {e : Eng} (h : SuiteInv env e) (hs : e.suite ≠ none) :
    SuiteInv env (enablePeerEncryption env e).2 ∧ (enablePeerEncryption env e).2.suite ≠ none :=
  RSteps.keeps (P := fun s _ => SuiteInv env s ∧ s.suite ≠ none)
    (fun _ _ _ _ g h => ⟨h.1.step g fun _ => h.2, suite_step g h.2⟩) (enablePeerEncryption_rx e) ⟨h, hs⟩

theorem suiteAt_hs {env : Env} {e : Eng} {a b : Bytes} (h : SuiteAt env 0 e) :
    wp (installHandshakeKeys env a b) e (fun _ e' => SuiteInv env e' ∧ e'.suite ≠ none)
      (fun f e' => SuiteAt env 0 e' ∧ f ≠ .transient) := by
  refine wp_installHandshakeKeys ?_ ?_ ?_
  · intro suite ks kr hs _ _
    exact ⟨⟨h.1.ok, h.1.enc, h.1.rel⟩, by rw [hs]; nofun⟩
  · intro f hf; exact ⟨h, hf⟩
  · intro f k hf; exact ⟨⟨⟨h.1.ok, h.1.enc, h.1.rel⟩, h.2⟩, hf⟩

theorem suiteAt_app {env : Env} {e : Eng} {a b : Bytes} (h : SuiteAt env 1 e) :
    wp (installApplicationKeys env a b) e (fun _ e' => SuiteInv env e' ∧ e'.suite ≠ none)
      (fun f e' => SuiteAt env 1 e' ∧ f ≠ .transient) := by
  refine wp_installApplicationKeys ?_ ?_ ?_
  · intro suite ks kr hs _ _ _
    exact ⟨⟨h.1.ok, h.1.enc, h.1.rel⟩, by rw [hs]; nofun⟩
  · intro f hf; exact ⟨h, hf⟩
  · intro f k hf; exact ⟨⟨⟨h.1.ok, h.1.enc, h.1.rel⟩, h.2⟩, hf⟩

theorem suite_cphases (env : Env) :
    CPhases env (SuiteAt env) (SuiteAt env) (fun e => SuiteInv env e ∧ e.suite ≠ none) where
  toPhases := suiteAt_phases env
  hs _ _ _ h := suiteAt_hs h
  enable _ h := wp_mono (to_wp (R := fun s => SuiteInv env s ∧ s.suite ≠ none) (suiteAt_enable h.1 h.2))
    (fun _ _ h => ⟨h.1, fun _ => h.2⟩) (fun _ _ h => ⟨⟨h.1, fun _ => h.2⟩, fun _ => ⟨h.1, fun _ => h.2⟩⟩)
  weak1 _ h := ⟨h.1, fun h => absurd rfl h⟩
  appKeys _ _ _ h := wp_mono (suiteAt_app h) (fun _ _ h => ⟨h.1, fun _ => h.2⟩) (fun _ _ h => h)
  release _ h := ⟨⟨h.1.ok, h.1.enc, fun _ => h.2 nofun⟩, fun _ => h.2 nofun⟩

theorem suite_sphases (env : Env) :
    SPhases env (SuiteAt env) (SuiteAt env) (fun e => SuiteInv env e ∧ e.suite ≠ none) where
  toPhases := suiteAt_phases env
  hs _ _ _ h := wp_mono (suiteAt_hs h) (fun _ _ h => ⟨h.1, fun _ => h.2⟩) (fun _ _ h => h)
  enable _ h := wp_mono (to_wp (R := fun s => SuiteInv env s ∧ s.suite ≠ none) (suiteAt_enable h.1 h.2))
    (fun _ _ h => ⟨h.1, fun _ => h.2⟩) (fun _ _ h => ⟨⟨h.1, fun _ => h.2⟩, fun _ => ⟨h.1, fun _ => h.2⟩⟩)
  appKeys _ _ _ h := suiteAt_app h
  release _ h := ⟨⟨h.1.ok, h.1.enc, fun _ => h.2 nofun⟩, fun _ => h.2 nofun⟩

variable {env : PEnv} {cfg : Cfg} {R : Role} {s0 : Ses R.St}

theorem Start.suite0 (h : Start env cfg R s0) : s0.eng.suite = none ∧ s0.eng.peerEnc = false ∧ s0.eng.release = false :=
  ⟨congrArg RxPart.suite h.rp0, congrArg RxPart.peerEnc h.rp0, congrArg RxPart.release h.rp0⟩

theorem Start.suiteInv (h : Start env cfg R s0) (cs : List Call) : SuiteInv env.toEnv (run R env s0 cs).2.eng := by
  obtain ⟨h1, h2, h3⟩ := h.suite0
  have h0 : SuiteAt env.toEnv 0 s0.eng :=
    ⟨⟨by rw [h1]; nofun, by rw [h2]; nofun, by rw [h3]; nofun⟩, fun h => absurd rfl h⟩
  exact h.phase (suite_cphases env.toEnv) (suite_sphases env.toEnv) (fun _ _ _ h => h) (fun _ _ _ h => h)
    (fun _ _ h => h.1) (fun _ _ h => h.1) h0 h0 cs

end Verif.E13

import Verif.Lemmas.Phase13
import Verif.Lemmas.Prov13
/-!
# Invariants of the receive side of DTLS 1.3 sessions
-/
namespace Verif.E13
open Verif Wire Window Timer Aead M
open Verif.E12 (insertAt Call)

/-! ## Data is released only under encryption -/

section released
variable {env : Env}

/-- Released data and the peer's encryption, by phase; the peer's encryption is on from phase `n` on, and
phase 3 is that of the connected states. -/
def RelInv (n : Nat) (p : Nat) (s : Eng) (_ : Hand) : Prop :=
  (p < 3 → s.release = false) ∧ (n ≤ p → s.peerEnc = true) ∧ (p = 3 → s.release = true)

theorem RelInv.step {n p : Nat} {poll : Bool} {s s' : Eng} {a a' : Hand}
    (g : RStep env false poll (s, a) (s', a')) (h : RelInv n p s a) : RelInv n p s' a' := by
  have same : s'.release = s.release → s'.peerEnc = s.peerEnc → RelInv n p s' a' := by
    intro h1 h2; unfold RelInv; rw [h1, h2]; exact h
  cases g with
  | other g => exact same (congrArg RxPart.release g) (congrArg RxPart.peerEnc g)
  | noted ho => exact same (openedSt_same ..).2.2.2.1 (openedSt_same ..).2.1
  | opened ho hr => exact same (openedSt_same ..).2.2.2.1 (openedSt_same ..).2.1
  | enable i hk => cases hk
  | release hk => cases hk
  | retain hk => cases hk
  | retry hk => cases hk
  | _ => exact same rfl rfl

theorem relInv_keep {n p : Nat} {poll : Bool} {s s' : Eng} (g : RMove env false poll s s') (h : RelInv n p s .idle) :
    RelInv n p s' .idle :=
  RSteps.keeps (P := RelInv n p) (fun _ _ _ _ => RelInv.step) g h

theorem relInv_phases (n : Nat) : Phases env (fun p e => RelInv n p e .idle) (fun p e => RelInv n p e .idle) :=
  phases_rx (fun _ _ _ _ _ _ _ => RelInv.step) (fun _ h => h) (fun _ _ _ h => h)

theorem relInv_client : CPhases env (fun p e => RelInv 1 p e .idle) (fun p e => RelInv 1 p e .idle)
    (fun e => RelInv 1 0 e .idle) where
  toPhases := relInv_phases 1
  hs e a b h := wp_installHandshakeKeys (fun _ _ _ _ _ _ => h) (fun f hf => ⟨h, hf⟩) (fun f k hf => ⟨h, hf⟩)
  enable e h := by
    obtain ⟨i, _, g⟩ := enablePeerEncryption_split env false false e
    have h1 : RelInv 1 1 (enablePeerEncryption env e).2 .idle := relInv_keep g ⟨fun _ => h.1 (by decide), fun _ => rfl, nofun⟩
    have h2 : RelInv 1 0 (enablePeerEncryption env e).2 .idle := ⟨fun _ => h1.1 (by decide), nofun, nofun⟩
    exact wp_of (fun _ _ he => by rw [he] at h1; exact h1) (fun _ _ he => by rw [he] at h2; exact ⟨h2, fun _ => h2⟩)
  weak1 e h := ⟨fun _ => h.1 (by decide), nofun, nofun⟩
  appKeys e a b h := wp_installApplicationKeys (fun _ _ _ _ _ _ _ => ⟨fun _ => h.1 (by decide), fun _ => h.2.1 (by decide), nofun⟩)
    (fun f hf => ⟨h, hf⟩) (fun f k hf => ⟨h, hf⟩)
  release e h := ⟨nofun, fun _ => h.2.1 (by decide), fun _ => rfl⟩

theorem relInv_server : SPhases env (fun p e => RelInv 2 p e .idle) (fun p e => RelInv 2 p e .idle)
    (fun e => RelInv 2 1 e .idle) where
  toPhases := relInv_phases 2
  hs e a b h := wp_installHandshakeKeys (fun _ _ _ _ _ _ => ⟨fun _ => h.1 (by decide), nofun, nofun⟩)
    (fun f hf => ⟨h, hf⟩) (fun f k hf => ⟨h, hf⟩)
  enable e h := by
    obtain ⟨i, _, g⟩ := enablePeerEncryption_split env false false e
    have h1 : RelInv 2 2 (enablePeerEncryption env e).2 .idle := relInv_keep g ⟨fun _ => h.1 (by decide), fun _ => rfl, nofun⟩
    have h2 : RelInv 2 1 (enablePeerEncryption env e).2 .idle := ⟨fun _ => h1.1 (by decide), nofun, nofun⟩
    exact wp_of (fun _ _ he => by rw [he] at h1; exact h1) (fun _ _ he => by rw [he] at h2; exact ⟨h2, fun _ => h2⟩)
  appKeys e a b h := wp_installApplicationKeys (fun _ _ _ _ _ _ _ => h) (fun f hf => ⟨h, hf⟩) (fun f k hf => ⟨h, hf⟩)
  release e h := ⟨nofun, fun _ => h.2.1 (by decide), fun _ => rfl⟩

end released

variable {env : PEnv} {cfg : Cfg} {R : Role} {s0 : Ses R.St}

/-- In the connected state application data is released. -/
theorem Start.connected (h : Start env cfg R s0) (cs : List Call) (ha : (run R env s0 cs).2.st = R.app) :
    (run R env s0 cs).2.eng.release = true := by
  have h0 : s0.eng.release = false := congrArg RxPart.release h.rp0
  obtain ⟨p, h1, _, _, h2⟩ := h.phases relInv_client relInv_server (fun _ _ _ h => h)
    (fun _ _ _ h => h) ⟨fun _ => h0, nofun, nofun⟩ ⟨fun _ => h0, nofun, nofun⟩ cs
  obtain rfl := h1 ha
  rcases h2 with h2 | h2
  · exact h2.2.2 rfl
  · exact h2.2.2 rfl

/-- Application data is released only after the peer's encryption is on. -/
theorem Start.released (h : Start env cfg R s0) (cs : List Call) :
    (run R env s0 cs).2.eng.release = true → (run R env s0 cs).2.eng.peerEnc = true := by
  have h0 : s0.eng.release = false := congrArg RxPart.release h.rp0
  refine h.phase (Q := fun e => e.release = true → e.peerEnc = true) relInv_client relInv_server (fun _ _ _ h => h)
    (fun _ _ _ h => h) ?_ ?_ ⟨fun _ => h0, nofun, nofun⟩ ⟨fun _ => h0, nofun, nofun⟩ cs
  · intro p e h hr
    refine h.2.1 ?_
    rcases Nat.lt_or_ge p 3 with hp | hp
    · rw [h.1 hp] at hr; cases hr
    · omega
  · intro p e h hr
    refine h.2.1 ?_
    rcases Nat.lt_or_ge p 3 with hp | hp
    · rw [h.1 hp] at hr; cases hr
    · omega

/-- Where the records of a session come from. -/
theorem Start.prov (h : Start env cfg R s0) (cs : List Call) : Prov env.toEnv (run R env s0 cs).2.eng .idle := by
  refine h.rxJ (J := fun e => e.release = true → e.peerEnc = true) (P := Prov env.toEnv) h.released
    (fun s s' a a' g p => p.step g.q nofun) ?_ ?_ cs
  · intro s s' a a' g hj p
    refine ⟨?_, p.step g.q (fun _ => hj)⟩
    have same : s'.release = s.release → s'.peerEnc = s.peerEnc → s'.release = true → s'.peerEnc = true := by
      intro h1 h2; rw [h1, h2]; exact hj
    cases g with
    | other g => exact same (congrArg RxPart.release g) (congrArg RxPart.peerEnc g)
    | noted ho => exact same (openedSt_same ..).2.2.2.1 (openedSt_same ..).2.1
    | opened ho hr => exact same (openedSt_same ..).2.2.2.1 (openedSt_same ..).2.1
    | enable i _ hk => cases hk
    | release _ hk => cases hk
    | retain _ hk => cases hk
    | _ => exact same rfl rfl
  · have hr : s0.eng.rx = [] := congrArg RxPart.rx h.rp0
    have hl : s0.eng.log = [] := h.saved0.2.2.1
    refine ⟨?_, ?_, ?_, ?_⟩
    · unfold recs Hand.recs; rw [hr]; exact fun _ h => nomatch h
    · rw [hl]; exact fun _ _ _ _ _ _ _ h => nomatch h
    · rw [hl]; exact fun _ _ h => nomatch h
    · rw [hl]; exact fun _ _ _ _ _ _ _ _ h => nomatch h

/-- The receive keys of a session. -/
theorem Start.keyInv (h : Start env cfg R s0) (cs : List Call) : KeyInv env.toEnv (run R env s0 cs).2.eng := by
  refine h.rx (P := fun s _ => KeyInv env.toEnv s) (fun _ _ _ _ _ g => KeyInv.step g) ?_ cs
  have hl : s0.eng.log = [] := h.saved0.2.2.1
  have h1 : s0.eng.appRecv = [] := congrArg RxPart.appRecv h.rp0
  have h2 : s0.eng.hsRecv = none := congrArg RxPart.hsRecv h.rp0
  refine ⟨?_, ?_, ?_⟩
  · rw [h1]; exact fun _ h => nomatch h
  · rw [h2]; exact fun _ h => nomatch h
  · rw [hl]; exact fun _ _ _ _ _ _ _ h => nomatch h

end Verif.E13

import Verif.Lemmas.Session13
/-!
# Invariants of DTLS 1.3 sessions
-/
namespace Verif.E13
open Verif M
open Verif.E12 (Call)

/-- `I` is kept by everything a session does. -/
structure Stable (R : Role) (env : PEnv) (I : Ses R.St → Prop) : Prop where
  packet : ∀ s p, I s → I { s with eng := (parsePacket env.toEnv p s.eng).2 }
  keep : ∀ s l b, I s → I { s with retained := l, autoMode := b }
  note : ∀ s n, I s → I (noteTime R env n s)
  timeout : ∀ s n, I s → I { s with eng := (handleTimeout env.toEnv n s.eng).2 }
  step : ∀ s, I s → wp (R.step env s.st) s (fun new s' => s'.st = s.st ∧ I { s' with st := new })
    (fun _ s' => I s')
  send : ∀ s d, I s → I (sendM R env d s).2
  close : ∀ s, I s → I (closeM R env s).2
  poll : ∀ s n, I s → I (pollM R n s).2

namespace Stable
variable {R : Role} {env : PEnv} {I : Ses R.St → Prop}

theorem progress (h : Stable R env I) (fuel : Nat) (s : Ses R.St) (hs : I s) :
    I (progress R env fuel s).2 := by
  induction fuel generalizing s with
  | zero => exact hs
  | succ n ih =>
    apply of_wp (m := E13.progress R env (n + 1))
    unfold E13.progress
    simp only [bind_eq, pure_eq, wp_bind, wp_get]
    refine wp_mono (h.step s hs) ?_ (fun _ _ h => h)
    rintro new s' ⟨hst, hI⟩
    split
    · rename_i he
      subst he
      rw [wp_pure]
      have : s' = { s' with st := s.st } := by rw [← hst]
      rw [this]
      exact hI
    · simp only [wp_bind, wp_modify]
      rw [wp_state]
      exact ih _ hI

theorem call (h : Stable R env I) (s : Ses R.St) (c : Call) (hs : I s) : I (call R env s c).2 := by
  cases c with
  | packet p =>
    show I (handlePacketM R env p s).2
    have key : ∀ s : Ses R.St, I s → wp (M.bind (onEng (parsePacket env.toEnv p)) fun _ =>
        M.bind (E13.progress R env progressFuel) fun _ => M.modify fun s =>
          if s.autoMode && !R.first s.st then { s with retained := [], autoMode := false } else s) s
        (fun _ s' => I s') (fun _ s' => I s') := by
      intro s hs
      rw [wp_bind, wp_onEng]
      refine wp_mono (wp_state (R := fun e => I { s with eng := e }) |>.mpr (h.packet s p hs)) ?_ (fun _ _ g => g)
      intro _ e he
      rw [wp_bind]
      refine wp_mono (wp_state (R := I) |>.mpr (h.progress progressFuel _ he)) ?_ (fun _ _ g => g)
      intro _ s' hs'
      rw [wp_modify]
      split
      · exact h.keep _ _ _ hs'
      · exact hs'
    apply of_wp (m := handlePacketM R env p)
    unfold handlePacketM
    simp only [bind_eq, wp_bind, wp_get]
    split
    · split
      · exact hs
      · rw [wp_bind, wp_modify]
        exact key { s with retained := s.retained ++ [p] } (h.keep s (s.retained ++ [p]) s.autoMode hs)
    · exact key s hs
  | timeout n =>
    show I (handleTimeoutM R env n s).2
    apply of_wp (m := handleTimeoutM R env n)
    unfold handleTimeoutM
    simp only [bind_eq, wp_bind, wp_modify, wp_onEng]
    have hn := h.note s n hs
    generalize noteTime R env n s = t at hn
    refine wp_mono (wp_state (R := fun e => I { t with eng := e }) |>.mpr (h.timeout t n hn)) ?_ (fun _ _ g => g)
    intro _ e he
    exact wp_state.mpr (h.progress progressFuel _ he)
  | send d => exact h.send s d hs
  | close => exact h.close s hs
  | poll n => exact h.poll s n hs

theorem run (h : Stable R env I) (s : Ses R.St) (cs : List Call) (hs : I s) : I (run R env s cs).2 := by
  induction cs generalizing s with
  | nil => exact hs
  | cons c cs ih =>
    have hc := h.call s c hs
    unfold E13.run
    dsimp only
    split
    · exact hc
    · exact ih _ hc

end Stable
end Verif.E13

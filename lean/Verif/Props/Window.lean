import Verif.Lemmas.Window
/-!
# C01, C02 (and the window half of C03): the anti-replay filter

Specification, written without bitmaps: remember the list of all numbers accepted so far.
-/
namespace Verif.Props.Window
open Verif.Window

/-- A number is acceptable when it was never accepted and no accepted number is more than 63 ahead. -/
def Acceptable (accepted : List Nat) (n : Nat) : Prop :=
  n ∉ accepted ∧ ∀ m ∈ accepted, m ≤ n + 63

instance (acc : List Nat) (n : Nat) : Decidable (Acceptable acc n) := by
  unfold Acceptable; infer_instance

/-- Ideal filter: decisions for a history of (number, authentic?) given the numbers accepted so far. -/
def ideal (accepted : List Nat) : List (Nat × Bool) → List Bool
  | [] => []
  | (n, a) :: rest =>
    if Acceptable accepted n ∧ a = true then true :: ideal (n :: accepted) rest
    else false :: ideal accepted rest

/-- Numbers of the history that a decision list accepted. -/
def acceptedOf (hist : List (Nat × Bool)) (ds : List Bool) : List Nat :=
  ((hist.zip ds).filter (fun p => p.2)).map (fun p => p.1.1)

theorem run_eq_ideal_of_rep (hist : List (Nat × Bool)) :
    ∀ (w : ReplayWindow) (acc : List Nat), Rep w acc → (w.run hist).2 = ideal acc hist := by
  induction hist with
  | nil => intro w acc _; simp [ReplayWindow.run, ideal]
  | cons p rest ih =>
    intro w acc h
    obtain ⟨n, a⟩ := p
    simp only [ReplayWindow.run, ideal, ReplayWindow.offer]
    have hc := check_iff h n
    by_cases hn : Acceptable acc n
    · have hcheck : w.check n = true := hc.2 hn
      cases a
      · simp [hcheck, ih w acc h]
      · simp [hcheck, hn, ih _ _ (rep_update h n)]
    · have hcheck : w.check n = false := by
        rw [← Bool.not_eq_true]; exact fun hh => hn (hc.1 hh)
      simp [hcheck, hn, ih w acc h]

/-- **C01/C02 (full refinement).** For every history of offered record numbers and every
authentication outcome, the 64-bit window takes exactly the decisions of the ideal filter that
remembers every number ever accepted. -/
theorem window_refines_ideal (hist : List (Nat × Bool)) :
    (ReplayWindow.new.run hist).2 = ideal [] hist :=
  run_eq_ideal_of_rep hist _ _ rep_new

theorem ideal_nodup (hist : List (Nat × Bool)) :
    ∀ acc : List Nat,
      (acceptedOf hist (ideal acc hist)).Nodup ∧
      ∀ n ∈ acceptedOf hist (ideal acc hist), n ∉ acc := by
  induction hist with
  | nil => intro acc; simp [acceptedOf, ideal]
  | cons p rest ih =>
    intro acc
    obtain ⟨n, a⟩ := p
    simp only [ideal]
    by_cases hh : Acceptable acc n ∧ a = true
    · rw [if_pos hh]
      have := ih (n :: acc)
      simp only [acceptedOf, List.zip_cons_cons, List.filter_cons_of_pos, List.map_cons,
        List.nodup_cons, List.mem_cons, forall_eq_or_imp]
      refine ⟨⟨?_, this.1⟩, hh.1.1, ?_⟩
      · intro hm
        exact (this.2 n hm) (by simp)
      · intro m hm hacc
        exact (this.2 m hm) (by simp [hacc])
    · rw [if_neg hh]
      have := ih acc
      simpa [acceptedOf] using this

/-- **C01.** Over any history, the numbers let through are pairwise distinct. -/
theorem accepted_at_most_once (hist : List (Nat × Bool)) :
    (acceptedOf hist (ReplayWindow.new.run hist).2).Nodup := by
  rw [window_refines_ideal]
  exact (ideal_nodup hist []).1

/-- State after a history together with the numbers it accepted. -/
theorem rep_run (hist : List (Nat × Bool)) :
    ∀ (w : ReplayWindow) (acc : List Nat), Rep w acc →
      Rep (w.run hist).1 ((acceptedOf hist (w.run hist).2).reverse ++ acc) := by
  induction hist with
  | nil => intro w acc h; simpa [ReplayWindow.run, acceptedOf] using h
  | cons p rest ih =>
    intro w acc h
    obtain ⟨n, a⟩ := p
    simp only [ReplayWindow.run, ReplayWindow.offer]
    by_cases hc : w.check n = true
    · cases a
      · simpa [hc, acceptedOf] using ih w acc h
      · simpa [hc, acceptedOf] using ih _ _ (rep_update h n)
    · simpa [hc, acceptedOf] using ih w acc h

/-- **C02.** After any history, the next authentic record is accepted if and only if its number was
not accepted before and every accepted number is at most 63 ahead of it. -/
theorem fresh_accepted_iff (hist : List (Nat × Bool)) (n : Nat) :
    ((ReplayWindow.new.run hist).1.offer n true).2 = true ↔
      Acceptable (acceptedOf hist (ReplayWindow.new.run hist).2) n := by
  have h := rep_run hist _ _ rep_new
  have hc := check_iff h n
  simp only [ReplayWindow.offer]
  have hmem : (n ∉ (acceptedOf hist (ReplayWindow.new.run hist).2).reverse ++ [] ∧
      ∀ m ∈ (acceptedOf hist (ReplayWindow.new.run hist).2).reverse ++ [], m ≤ n + 63) ↔
      Acceptable (acceptedOf hist (ReplayWindow.new.run hist).2) n := by
    simp [Acceptable]
  rw [hmem] at hc
  by_cases hh : (ReplayWindow.new.run hist).1.check n = true
  · simp [hh, hc.1 hh]
  · simp only [hh]
    simp only [Bool.false_eq_true, if_false, false_iff]
    exact fun h' => hh (hc.2 h')

/-- **C03 (window part).** A record that does not authenticate leaves the window unchanged, and so
leaves every later decision unchanged. -/
theorem forged_is_noop (w : ReplayWindow) (n : Nat) (later : List (Nat × Bool)) :
    (w.offer n false).1 = w ∧
    (w.run ((n, false) :: later)).2 = false :: (w.run later).2 := by
  have : w.offer n false = (w, false) := by
    unfold ReplayWindow.offer; split <;> rfl
  simp [ReplayWindow.run, this]

/-! Non-vacuity: a concrete history with reordering, a replay, a forgery, a too-old record and a
window jump. -/
example : (ReplayWindow.new.run
    [(0, true), (5, true), (3, true), (5, true), (3, true), (70, false), (70, true), (6, true),
     (7, true), (7, true), (200, true), (136, true), (137, true)]).2 =
    [true, true, true, false, false, false, true, false, true, false, true, false, true] := by
  decide
example : Acceptable [200, 7, 70, 3, 5, 0] 137 ∧ ¬ Acceptable [200, 7, 70, 3, 5, 0] 136 := by decide

end Verif.Props.Window

import Verif.Model.Window
/-! Helper lemmas for the anti-replay window. -/
namespace Verif.Window

/-- The window `w` represents the list `acc` of accepted numbers. -/
structure Rep (w : ReplayWindow) (acc : List Nat) : Prop where
  le : ∀ m ∈ acc, m ≤ w.maxSeq
  top : acc ≠ [] → w.maxSeq ∈ acc
  zero : acc = [] → w.maxSeq = 0
  bits : ∀ i, i < 64 → (w.window.getLsbD i = true ↔ i ≤ w.maxSeq ∧ w.maxSeq - i ∈ acc)

theorem rep_new : Rep ReplayWindow.new [] := by
  constructor <;> simp [ReplayWindow.new]

theorem and_mask_eq_zero (x : BitVec 64) (k : Nat) (hk : k < 64) :
    ((x &&& (1#64 <<< k)) == 0#64) = !(x.getLsbD k) := by
  rw [Bool.eq_iff_iff]
  simp only [beq_iff_eq, Bool.not_eq_true']
  constructor
  · intro h
    have := congrArg (fun b => BitVec.getLsbD b k) h
    simpa [hk] using this
  · intro h
    apply BitVec.eq_of_getLsbD_eq
    intro i hi
    simp only [BitVec.getLsbD_and, BitVec.getLsbD_shiftLeft, BitVec.getLsbD_one,
      BitVec.getLsbD_zero]
    by_cases hik : i = k
    · subst hik; simp [h]
    · have : ¬ (i - k = 0 ∧ k ≤ i) := by omega
      by_cases hlt : i < k
      · simp [hlt]
      · have : i - k ≠ 0 := by omega
        simp [this]

theorem getLsbD_one_shiftLeft (i k : Nat) (hi : i < 64) :
    (1#64 <<< k).getLsbD i = decide (i = k) := by
  simp only [BitVec.getLsbD_shiftLeft, BitVec.getLsbD_one]
  by_cases h : i < k
  · have : i ≠ k := by omega
    simp [h, this]
  · by_cases h2 : i = k
    · subst h2; simp [hi]
    · have : i - k ≠ 0 := by omega
      simp [this, h2]

theorem check_iff {w acc} (h : Rep w acc) (n : Nat) :
    w.check n = true ↔ n ∉ acc ∧ ∀ m ∈ acc, m ≤ n + 63 := by
  unfold ReplayWindow.check
  by_cases h1 : n > w.maxSeq
  · simp only [h1, if_true, true_iff]
    refine ⟨fun hm => ?_, fun m hm => ?_⟩
    · have := h.le _ hm; omega
    · have := h.le _ hm; omega
  · simp only [h1, if_false]
    by_cases h2 : w.maxSeq - n ≥ 64
    · simp only [h2, if_true, Bool.false_eq_true, false_iff]
      intro ⟨_, hb⟩
      by_cases he : acc = []
      · have := h.zero he; omega
      · have := hb _ (h.top he); omega
    · simp only [h2, if_false]
      rw [and_mask_eq_zero _ _ (by omega)]
      have hb := h.bits (w.maxSeq - n) (by omega)
      have hsub : w.maxSeq - (w.maxSeq - n) = n := by omega
      rw [hsub] at hb
      have hb' : w.window.getLsbD (w.maxSeq - n) = true ↔ n ∈ acc := by
        rw [hb]; constructor
        · exact fun h => h.2
        · exact fun h => ⟨by omega, h⟩
      rw [Bool.not_eq_true', ← Bool.not_eq_true, hb']
      constructor
      · intro hn
        exact ⟨hn, fun m hm => by have := h.le _ hm; omega⟩
      · exact fun h => h.1

theorem rep_update {w acc} (h : Rep w acc) (n : Nat) : Rep (w.update n) (n :: acc) := by
  unfold ReplayWindow.update
  by_cases h1 : n > w.maxSeq
  · simp only [h1, if_true]
    by_cases h2 : n - w.maxSeq > 63
    · simp only [h2, if_true]
      refine ⟨?_, ?_, ?_, ?_⟩
      · intro m hm
        rcases List.mem_cons.1 hm with rfl | hm
        · exact Nat.le_refl _
        · have := h.le _ hm; simp only; omega
      · intro _; simp
      · simp
      · intro i hi
        simp only [BitVec.getLsbD_one, List.mem_cons]
        constructor
        · intro hh
          have : i = 0 := by simpa using hh
          subst this; simp
        · intro ⟨hle, hh⟩
          rcases hh with hh | hh
          · have : i = 0 := by omega
            simp [this]
          · have := h.le _ hh; omega
    · simp only [h2, if_false]
      refine ⟨?_, ?_, ?_, ?_⟩
      · intro m hm
        rcases List.mem_cons.1 hm with rfl | hm
        · exact Nat.le_refl _
        · have := h.le _ hm; simp only; omega
      · intro _; simp
      · simp
      · intro i hi
        simp only [BitVec.getLsbD_or, BitVec.getLsbD_shiftLeft, BitVec.getLsbD_one, List.mem_cons]
        by_cases hi0 : i = 0
        · subst hi0; simp
        · by_cases hlt : i < n - w.maxSeq
          · have hne : ¬ (n - i = n) := by omega
            have hnm : n - i ∉ acc := fun hm => by have := h.le _ hm; omega
            simp [hlt, hi0, hne, hnm]
          · have hb := h.bits (i - (n - w.maxSeq)) (by omega)
            have hne : ¬ (n - i = n) := by omega
            simp only [hi, decide_true, hlt, decide_false, Bool.not_false, Bool.true_and,
              hi0, Bool.and_false, Bool.or_false, hb, hne, false_or]
            constructor
            · intro ⟨ha, hbm⟩
              have e : w.maxSeq - (i - (n - w.maxSeq)) = n - i := by omega
              rw [e] at hbm
              exact ⟨by omega, hbm⟩
            · intro ⟨ha, hbm⟩
              have e : w.maxSeq - (i - (n - w.maxSeq)) = n - i := by omega
              rw [e]
              exact ⟨by omega, hbm⟩
  · simp only [h1, if_false]
    have hne : acc = [] → w.maxSeq = n := fun he => by have := h.zero he; omega
    have htop : w.maxSeq ∈ n :: acc := by
      by_cases he : acc = []
      · rw [hne he]; simp
      · exact List.mem_cons_of_mem _ (h.top he)
    have hle : ∀ m ∈ n :: acc, m ≤ w.maxSeq := by
      intro m hm
      rcases List.mem_cons.1 hm with rfl | hm
      · omega
      · exact h.le _ hm
    by_cases h2 : w.maxSeq - n < 64
    · simp only [h2, if_true]
      refine ⟨hle, fun _ => htop, by simp, ?_⟩
      intro i hi
      simp only [BitVec.getLsbD_or, getLsbD_one_shiftLeft _ _ hi, Bool.or_eq_true, decide_eq_true_eq,
        h.bits i hi, List.mem_cons]
      constructor
      · rintro (⟨a, b⟩ | rfl)
        · exact ⟨a, Or.inr b⟩
        · exact ⟨by omega, Or.inl (by omega)⟩
      · rintro ⟨a, b | b⟩
        · right; omega
        · exact Or.inl ⟨a, b⟩
    · simp only [h2, if_false]
      refine ⟨hle, fun _ => htop, by simp, ?_⟩
      intro i hi
      rw [h.bits i hi, List.mem_cons]
      constructor
      · exact fun ⟨a, b⟩ => ⟨a, Or.inr b⟩
      · rintro ⟨a, b | b⟩
        · omega
        · exact ⟨a, b⟩

end Verif.Window

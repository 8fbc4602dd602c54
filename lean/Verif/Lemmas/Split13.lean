import Verif.Props.Wire
/-!
# The pieces of a DTLS 1.3 datagram are datagrams of one record
-/
namespace Verif.Wire

theorem take_two_take (n k : Nat) (p : Bytes) (h : k + 2 ≤ n) : ((p.take n).drop k).take 2 = (p.drop k).take 2 := by
  rw [List.drop_take, List.take_take]
  congr 1
  omega

theorem recordEnd13_take (p : Bytes) (n : Nat) (h : recordEnd13 p = some (some n)) (hl : n ≤ p.length) :
    recordEnd13 (p.take n) = some (some n) := by
  cases p with
  | nil => simp [recordEnd13] at h
  | cons b tl =>
    have hpos := Props.Wire.recordEnd13_pos _ n h
    obtain ⟨m, rfl⟩ : ∃ m, n = m + 1 := ⟨n - 1, by omega⟩
    have hlen : (b :: tl.take m).length = m + 1 := by
      simp only [List.length_cons, List.length_take] at hl ⊢; omega
    have hq : (b :: tl).take (m + 1) = b :: tl.take m := rfl
    unfold recordEnd13 at h ⊢
    rw [hq]
    simp only [hlen] at h ⊢
    by_cases hc : isCiphertextHeader b = true
    · rw [if_pos hc] at h ⊢
      by_cases hf : flagC b = true
      · rw [if_pos hf] at h; cases h
      · rw [if_neg hf] at h ⊢
        by_cases h1 : (b :: tl).length < 2
        · rw [if_pos h1] at h; cases h
        · rw [if_neg h1] at h
          generalize hsl : (if flagS b = true then 2 else 1) = sl at h ⊢
          have hsl1 : 1 ≤ sl := by rw [← hsl]; split <;> omega
          generalize hll : (if flagL b = true then 2 else 0) = ll at h ⊢
          by_cases h2 : (b :: tl).length < 1 + sl + ll
          · rw [if_pos h2] at h; cases h
          · rw [if_neg h2] at h
            by_cases hL : flagL b = true
            · rw [if_pos hL] at h hll
              simp only [Option.some.injEq] at h
              rw [if_neg (by omega), if_neg (by omega), if_pos hL]
              simp only [Option.some.injEq]
              rw [← hq, take_two_take _ _ _ (by omega)]
              exact h
            · rw [if_neg hL] at h
              simp only [Option.some.injEq] at h
              rw [if_neg (by omega), if_neg (by omega), if_neg hL]
    · rw [if_neg hc] at h ⊢
      by_cases h1 : (b :: tl).length < 13
      · rw [if_pos h1] at h; cases h
      · rw [if_neg h1] at h
        simp only [Option.some.injEq] at h
        rw [if_neg (by omega)]
        simp only [Option.some.injEq]
        rw [← hq, take_two_take _ _ _ (by omega)]
        exact h

/-- Cutting a piece again gives the piece. -/
theorem split13_self {p sl : Bytes} (h : sl ∈ (split13 p).1) : split13 sl = ([sl], .done) := by
  unfold split13 at h
  suffices H : ∀ fuel (p : Bytes), sl ∈ (split13Aux fuel p).1 →
      ∃ q n, sl = q.take n ∧ recordEnd13 q = some (some n) ∧ n ≤ q.length by
    obtain ⟨q, n, rfl, h1, h2⟩ := H _ _ h
    have hpos := Props.Wire.recordEnd13_pos _ n h1
    have hlen : (q.take n).length = n := by rw [List.length_take]; omega
    have h3 := recordEnd13_take q n h1 h2
    unfold split13
    generalize q.take n = sl at hlen h3
    obtain ⟨m, rfl⟩ : ∃ m, n = m + 1 := ⟨n - 1, by omega⟩
    rw [hlen]
    unfold split13Aux
    have he : sl.isEmpty = false := by cases sl with | nil => simp at hlen | cons => rfl
    rw [he]
    simp only [Bool.false_eq_true, if_false, h3]
    rw [if_neg (by omega)]
    have hd : sl.drop (m + 1) = [] := by rw [← hlen]; simp
    have ht : sl.take (m + 1) = sl := by rw [← hlen]; simp
    rw [hd, ht]
    rfl
  intro fuel
  induction fuel with
  | zero => intro p h; cases h
  | succ f ih =>
    intro p h
    unfold split13Aux at h
    split at h
    · cases h
    · split at h
      · cases h
      · cases h
      · rename_i n hn
        split at h
        · cases h
        · rename_i hl
          rcases List.mem_cons.mp h with h | h
          · exact ⟨p, n, h, hn, by omega⟩
          · exact ih _ h

end Verif.Wire

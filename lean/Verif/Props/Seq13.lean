import Verif.Model.Seq13
/-!
# C04: truncated sequence numbers, and the range of the key-usage threshold (part of C36)
-/
namespace Verif.Props.Seq13
open Verif.Seq13

theorem reconstruct_window (n expected W h : Int) (hW : W = 2 * h) (hh : 0 < h) (hn : 0 ≤ n)
    (h1 : n < expected + h) (h2 : expected < n + h) :
    max (expected + (if n % W - expected % W > h then n % W - expected % W - W
      else if n % W - expected % W < -h then n % W - expected % W + W
      else n % W - expected % W)) 0 = n := by
  have hWpos : 0 < W := by omega
  have a1 := Int.emod_nonneg n (by omega : W ≠ 0)
  have a2 := Int.emod_lt_of_pos n hWpos
  have b1 := Int.emod_nonneg expected (by omega : W ≠ 0)
  have b2 := Int.emod_lt_of_pos expected hWpos
  have ea := Int.emod_add_mul_ediv n W
  have eb := Int.emod_add_mul_ediv expected W
  -- quotient difference is -1, 0 or 1
  generalize hqa : n / W = qa at *
  generalize hqb : expected / W = qb at *
  generalize hra : n % W = ra at *
  generalize hrb : expected % W = rb at *
  have hd : (ra - rb) = (n - expected) - W * (qa - qb) := by
    have : W * (qa - qb) = W * qa - W * qb := Int.mul_sub W qa qb
    omega
  have hk1 : qa - qb ≤ 1 := by
    by_cases hc : qa - qb ≤ 1
    · exact hc
    · have : W * 2 ≤ W * (qa - qb) := Int.mul_le_mul_of_nonneg_left (by omega) (by omega)
      omega
  have hk2 : -1 ≤ qa - qb := by
    by_cases hc : -1 ≤ qa - qb
    · exact hc
    · have : W * (qa - qb) ≤ W * (-2) := Int.mul_le_mul_of_nonneg_left (by omega) (by omega)
      omega
  have hcase : qa - qb = -1 ∨ qa - qb = 0 ∨ qa - qb = 1 := by omega
  rcases hcase with hk | hk | hk <;> rw [hk] at hd
  · split
    · omega
    · split <;> omega
  · split
    · omega
    · split <;> omega
  · split
    · omega
    · split <;> omega

theorem reconstruct_general (n expected bits : Nat) (hb : 1 ≤ bits)
    (h1 : n < expected + 2 ^ (bits - 1)) (h2 : expected < n + 2 ^ (bits - 1)) :
    reconstruct (n % 2 ^ bits) expected bits = n := by
  obtain ⟨k, rfl⟩ : ∃ k, bits = k + 1 := ⟨bits - 1, by omega⟩
  simp only [Nat.add_sub_cancel] at h1 h2
  have hpos : 0 < 2 ^ k := Nat.two_pow_pos k
  have hW : (2 : Int) ^ (k + 1) = 2 * ((2 ^ k : Nat) : Int) := by
    rw [Int.pow_succ]; push_cast; omega
  have := reconstruct_window (n : Int) (expected : Int) ((2 : Int) ^ (k + 1)) ((2 ^ k : Nat) : Int) hW
    (by omega) (by omega) (by omega) (by omega)
  unfold reconstruct
  have hhalf : (2 : Int) ^ (k + 1) / 2 = ((2 ^ k : Nat) : Int) := by rw [hW]; omega
  have hc : ∀ m : Nat, ((m % 2 ^ (k + 1) : Nat) : Int) = (m : Int) % (2 : Int) ^ (k + 1) := by
    intro m; push_cast; rfl
  simp only [Nat.mod_mod, hhalf, hc]
  rw [this]
  rfl

/-- **C04.** With 16 transmitted bits: a record whose true number differs from the next expected one by
less than 2^15 (either side) is given its true number, for every expected number. -/
theorem reconstruct16 (n expected : Nat) (h1 : n < expected + 32768) (h2 : expected < n + 32768) :
    reconstruct (n % 65536) expected 16 = n := by
  have := reconstruct_general n expected 16 (by omega) (by simpa using h1) (by simpa using h2)
  simpa using this

/-- **C04.** With 8 transmitted bits the half window is 128. -/
theorem reconstruct8 (n expected : Nat) (h1 : n < expected + 128) (h2 : expected < n + 128) :
    reconstruct (n % 256) expected 8 = n := by
  have := reconstruct_general n expected 8 (by omega) (by simpa using h1) (by simpa using h2)
  simpa using this

/-- **C04 (agreement with the wire).** Whatever the expected number, the result either agrees with
the transmitted bits or was clamped to zero, and it is within half a window of the expectation. -/
theorem reconstruct_agrees (p expected bits : Nat) (hb : 1 ≤ bits) :
    (reconstruct p expected bits % 2 ^ bits = p % 2 ^ bits ∨ reconstruct p expected bits = 0) ∧
    reconstruct p expected bits ≤ expected + 2 ^ (bits - 1) ∧
    expected ≤ reconstruct p expected bits + 2 ^ (bits - 1) := by
  obtain ⟨k, rfl⟩ : ∃ k, bits = k + 1 := ⟨bits - 1, by omega⟩
  have hpos : 0 < 2 ^ k := Nat.two_pow_pos k
  have hWn : 2 ^ (k + 1) = 2 * 2 ^ k := by rw [Nat.pow_succ]; omega
  have hW : (2 : Int) ^ (k + 1) = 2 * ((2 ^ k : Nat) : Int) := by
    rw [Int.pow_succ]; push_cast; omega
  have hhalf : (2 : Int) ^ (k + 1) / 2 = ((2 ^ k : Nat) : Int) := by rw [hW]; omega
  unfold reconstruct
  simp only [hhalf, Nat.add_sub_cancel]
  rw [hW]
  have ha : p % 2 ^ (k + 1) < 2 ^ (k + 1) := Nat.mod_lt _ (by omega)
  have hb2 : expected % 2 ^ (k + 1) < 2 ^ (k + 1) := Nat.mod_lt _ (by omega)
  have he' := Nat.mod_add_div expected (2 ^ (k + 1))
  generalize hra : p % 2 ^ (k + 1) = a at *
  generalize hrb : expected % 2 ^ (k + 1) = b at *
  generalize hq : expected / 2 ^ (k + 1) = q at *
  generalize hh : (2 ^ k : Nat) = h at *
  rw [hWn] at ha hb2 he' ⊢
  have key : ∀ d : Int, (d = (a : Int) - b ∨ d = (a : Int) - b - 2 * h ∨ d = (a : Int) - b + 2 * h) →
      -(h : Int) ≤ d → d ≤ h →
      ((max ((expected : Int) + d) 0).toNat % (2 * h) = a ∨ (max ((expected : Int) + d) 0).toNat = 0) ∧
      (max ((expected : Int) + d) 0).toNat ≤ expected + h ∧
      expected ≤ (max ((expected : Int) + d) 0).toNat + h := by
    intro d hd hl hu
    refine ⟨?_, by omega, by omega⟩
    by_cases hneg : (expected : Int) + d ≤ 0
    · right; omega
    · left
      have hm : max ((expected : Int) + d) 0 = expected + d := by omega
      rw [hm]
      have hx : ∃ c : Int, (expected : Int) + d = a + (2 * h : Int) * c := by
        have hee : (expected : Int) = b + (2 * h : Int) * q := by
          rw [← he']; push_cast; rfl
        rcases hd with hd | hd | hd
        · exact ⟨q, by omega⟩
        · exact ⟨q - 1, by rw [Int.mul_sub]; omega⟩
        · exact ⟨q + 1, by rw [Int.mul_add]; omega⟩
      obtain ⟨c, hc⟩ := hx
      rw [hc]
      have hnn : 0 ≤ (a : Int) + (2 * h : Int) * c := by omega
      have hmod : ((a : Int) + (2 * h : Int) * c) % (2 * h : Int) = a := by
        rw [Int.add_mul_emod_self_left]
        exact Int.emod_eq_of_lt (by omega) (by omega)
      have := congrArg Int.toNat hmod
      rw [Int.toNat_emod hnn (by omega)] at this
      have h2 : (2 * (h : Int)).toNat = 2 * h := by omega
      rw [h2] at this
      simpa using this
  split
  · exact key _ (by omega) (by omega) (by omega)
  · split
    · exact key _ (by omega) (by omega) (by omega)
    · exact key _ (by omega) (by omega) (by omega)

/-- Boundary cases, including both wrap directions and the clamp. -/
example : reconstruct (65535 % 65536) 65536 16 = 65535 ∧ reconstruct (65537 % 65536) 65530 16 = 65537 ∧
    reconstruct 65000 5 16 = 0 ∧ reconstruct (281474976710655 % 65536) 281474976710650 16 = 281474976710655 := by
  decide

/-- **C36 (range).** The number of records after which a key update is requested lies between three
quarters of the configured limit and the limit. -/
theorem threshold_range (limit r : Nat) :
    jitteredThreshold limit r ≤ limit ∧ 3 * limit ≤ 4 * jitteredThreshold limit r := by
  unfold jitteredThreshold
  simp only
  have h := Nat.mod_lt r (by omega : limit / 4 + 1 > 0)
  split <;> omega

example : jitteredThreshold 8 1 = 7 ∧ jitteredThreshold 3 9 = 3 := by decide

end Verif.Props.Seq13

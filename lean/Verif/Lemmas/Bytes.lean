import Verif.Model.Bytes
/-! Lemmas about big-endian encodings. -/
namespace Verif

@[simp] theorem beBytes_length (k v : Nat) : (beBytes k v).length = k := by
  induction k with
  | zero => rfl
  | succ k ih => simp [beBytes, ih]

theorem ofBe_foldl (bs : Bytes) (acc : Nat) :
    bs.foldl (fun acc b => acc * 256 + b.toNat) acc = acc * 256 ^ bs.length + ofBe bs := by
  unfold ofBe
  induction bs generalizing acc with
  | nil => simp
  | cons b bs ih =>
    simp only [List.foldl_cons, List.length_cons]
    rw [ih, ih (0 * 256 + b.toNat)]
    rw [Nat.pow_succ]
    grind

@[simp] theorem ofBe_nil : ofBe [] = 0 := rfl

theorem ofBe_cons (b : UInt8) (bs : Bytes) : ofBe (b :: bs) = b.toNat * 256 ^ bs.length + ofBe bs := by
  have := ofBe_foldl bs b.toNat
  simpa [ofBe] using this

theorem ofBe_append (a b : Bytes) : ofBe (a ++ b) = ofBe a * 256 ^ b.length + ofBe b := by
  rw [ofBe, List.foldl_append, ofBe_foldl]; rfl

theorem ofBe_lt (bs : Bytes) : ofBe bs < 256 ^ bs.length := by
  induction bs with
  | nil => simp
  | cons b bs ih =>
    rw [ofBe_cons, List.length_cons, Nat.pow_succ]
    have hb : b.toNat < 256 := b.toNat_lt
    have : b.toNat * 256 ^ bs.length ≤ 255 * 256 ^ bs.length := Nat.mul_le_mul_right _ (by omega)
    omega

theorem ofBe_beBytes (k v : Nat) : ofBe (beBytes k v) = v % 256 ^ k := by
  induction k with
  | zero => simp [beBytes, Nat.mod_one]
  | succ k ih =>
    rw [beBytes, ofBe_cons, ih, beBytes_length, Nat.pow_succ, UInt8.toNat_ofNat']
    rw [Nat.mod_mul (x := v) (a := 256 ^ k) (b := 256)]
    have : (2 : Nat) ^ 8 = 256 := rfl
    rw [this, Nat.mul_comm]; omega

theorem ofBe_beBytes_of_lt {k v : Nat} (h : v < 256 ^ k) : ofBe (beBytes k v) = v := by
  rw [ofBe_beBytes, Nat.mod_eq_of_lt h]

theorem beBytes_inj {k v w : Nat} (hv : v < 256 ^ k) (hw : w < 256 ^ k)
    (h : beBytes k v = beBytes k w) : v = w := by
  rw [← ofBe_beBytes_of_lt hv, ← ofBe_beBytes_of_lt hw, h]

theorem beBytes_mod (k m v : Nat) (h : k ≤ m) : beBytes k (v % 256 ^ m) = beBytes k v := by
  induction k with
  | zero => rfl
  | succ k ih =>
    rw [beBytes, beBytes, ih (by omega)]
    congr 1
    apply UInt8.toNat_inj.1
    rw [UInt8.toNat_ofNat', UInt8.toNat_ofNat']
    obtain ⟨d, rfl⟩ : ∃ d, m = k + 1 + d := ⟨m - (k + 1), by omega⟩
    rw [show k + 1 + d = k + (1 + d) by omega, Nat.pow_add, Nat.mod_mul_right_div_self,
      Nat.pow_add]
    exact Nat.mod_mod_of_dvd _ ⟨256 ^ d, rfl⟩

theorem beBytes_ofBe (bs : Bytes) : beBytes bs.length (ofBe bs) = bs := by
  induction bs with
  | nil => rfl
  | cons b bs ih =>
    have hb : b.toNat < 256 := b.toNat_lt
    have hlt := ofBe_lt bs
    have hpos : 0 < 256 ^ bs.length := Nat.pow_pos (by omega)
    rw [List.length_cons, beBytes, ofBe_cons]
    congr 1
    · rw [Nat.mul_comm, Nat.mul_add_div hpos, Nat.div_eq_of_lt hlt]
      simp
    · rw [← beBytes_mod _ bs.length _ (Nat.le_refl _), Nat.mul_comm, Nat.mul_add_mod,
        Nat.mod_eq_of_lt hlt, ih]

theorem ofBe_inj {a b : Bytes} (hl : a.length = b.length) (h : ofBe a = ofBe b) : a = b := by
  rw [← beBytes_ofBe a, ← beBytes_ofBe b, h, hl]

/-! nom primitives on a concatenation -/

theorem take_append (a b : Bytes) (n : Nat) (h : a.length = n) : take n (a ++ b) = .ok b a := by
  subst h; simp [take]

theorem beNat_append (a b : Bytes) (n : Nat) (h : a.length = n) :
    beNat n (a ++ b) = .ok b (ofBe a) := by
  subst h; simp [beNat]

theorem beNat_beBytes (k v : Nat) (b : Bytes) (h : v < 256 ^ k) :
    beNat k (beBytes k v ++ b) = .ok b v := by
  rw [beNat_append _ _ _ (beBytes_length k v), ofBe_beBytes_of_lt h]

theorem take_ok {n : Nat} {i r a : Bytes} (h : take n i = .ok r a) : i = a ++ r ∧ a.length = n := by
  unfold take at h
  split at h
  · cases h
  · cases h; simp; omega

theorem beNat_ok {n v : Nat} {i r : Bytes} (h : beNat n i = .ok r v) :
    ∃ a : Bytes, i = a ++ r ∧ a.length = n ∧ ofBe a = v := by
  unfold beNat at h
  split at h
  · cases h
  · cases h; exact ⟨i.take n, by simp, by simp; omega, rfl⟩

end Verif

import Verif.Model.Wire
import Verif.Lemmas.Bytes
/-! Helper lemmas about record and handshake framing. -/
namespace Verif.Wire
open Verif

theorem beNat_one_cons (b : UInt8) (r : Bytes) : beNat 1 (b :: r) = .ok r b.toNat := by
  have := beNat_append [b] r 1 rfl
  simpa [ofBe_cons] using this

theorem u8_forall {P : UInt8 → Prop} (h : ∀ n : Fin 256, P (UInt8.ofNat n.val)) (b : UInt8) : P b := by
  have := h ⟨b.toNat, b.toNat_lt⟩
  simpa using this

theorem cipherFlags_mod (e : Nat) : cipherFlags e = cipherFlags (e % 4) := by
  unfold cipherFlags
  have h : ∀ n : Fin 256, (0x2C : UInt8) ||| (UInt8.ofNat n.val &&& 3) =
      0x2C ||| (UInt8.ofNat (n.val % 4) &&& 3) := by decide +kernel
  have he : UInt8.ofNat e = UInt8.ofNat (e % 256) := by
    apply UInt8.toNat_inj.1; simp
  rw [he]
  have := h ⟨e % 256, by omega⟩
  rw [this]
  simp only
  congr 2
  congr 1
  omega

theorem cipherFlags_spec (e : Nat) :
    isCiphertextHeader (cipherFlags e) = true ∧ flagC (cipherFlags e) = false ∧
    flagS (cipherFlags e) = true ∧ flagL (cipherFlags e) = true ∧
    epochBits (cipherFlags e) = e % 4 := by
  rw [cipherFlags_mod]
  have h : ∀ n : Fin 4, isCiphertextHeader (cipherFlags n.val) = true ∧
      flagC (cipherFlags n.val) = false ∧ flagS (cipherFlags n.val) = true ∧
      flagL (cipherFlags n.val) = true ∧ epochBits (cipherFlags n.val) = n.val := by decide +kernel
  exact h ⟨e % 4, by omega⟩

theorem bind_ok {α β : Type} {p : PRes α} {f : Bytes → α → PRes β} {r : Bytes} {b : β}
    (h : p.bind f = .ok r b) : ∃ r1 a, p = .ok r1 a ∧ f r1 a = .ok r b := by
  cases p with
  | ok r1 a => exact ⟨r1, a, rfl, h⟩
  | _ => simp [PRes.bind] at h

@[simp] theorem PRes.bind_ok' {α β : Type} (r : Bytes) (a : α) (f : Bytes → α → PRes β) :
    (PRes.ok r a).bind f = f r a := rfl

theorem beNat_one_ok {i r : Bytes} {v : Nat} (h : beNat 1 i = .ok r v) :
    ∃ b : UInt8, i = b :: r ∧ b.toNat = v := by
  obtain ⟨a, hi, hl, hv⟩ := beNat_ok h
  match a, hl with
  | [b], _ => exact ⟨b, by simpa using hi, by simpa [ofBe_cons] using hv⟩

end Verif.Wire

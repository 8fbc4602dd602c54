import Verif.Model.Fingerprint
/-!
# C79: fingerprint strings
-/
namespace Verif.Props.Fingerprint
open Verif Verif.Fingerprint

/-- The value of an upper-case hexadecimal digit (RFC 8122: `UHEX`). -/
def value (c : Char) : Option Nat :=
  if '0' ≤ c ∧ c ≤ '9' then some (c.toNat - '0'.toNat)
  else if 'A' ≤ c ∧ c ≤ 'F' then some (c.toNat - 'A'.toNat + 10)
  else none

/-- Reads `2UHEX *(":" 2UHEX)`. -/
def read : List Char → Option Bytes
  | [a, b] => do
    let x ← value a
    let y ← value b
    pure [UInt8.ofNat (16 * x + y)]
  | a :: b :: ':' :: rest => do
    let x ← value a
    let y ← value b
    let l ← read rest
    pure (UInt8.ofNat (16 * x + y) :: l)
  | _ => none

theorem value_digit : ∀ n < 16, value (digit n) = some n := by decide

theorem byte_back (b : UInt8) : UInt8.ofNat (16 * (b.toNat / 16) + b.toNat % 16) = b := by
  rw [Nat.div_add_mod]; exact UInt8.ofNat_toNat

theorem digits (b : UInt8) : value (digit (b.toNat / 16)) = some (b.toNat / 16) ∧
    value (digit (b.toNat % 16)) = some (b.toNat % 16) := by
  have h := b.toNat_lt
  exact ⟨value_digit _ (by omega), value_digit _ (by omega)⟩

/-- **C79.** The string is of the form of RFC 8122 and reads back as the bytes. -/
theorem format_reads (l : Bytes) (h : l ≠ []) : read (format l) = some l := by
  induction l with
  | nil => exact absurd rfl h
  | cons b rest ih =>
    obtain ⟨h1, h2⟩ := digits b
    cases rest with
    | nil =>
      show (do let x ← value _; let y ← value _; pure [UInt8.ofNat (16 * x + y)]) = _
      rw [h1, h2]
      exact congrArg (fun x => some [x]) (byte_back b)
    | cons c rest =>
      have := ih (List.cons_ne_nil _ _)
      have e : format (b :: c :: rest) = digit (b.toNat / 16) :: digit (b.toNat % 16) :: ':' :: format (c :: rest) := rfl
      rw [e]
      show (do
        let x ← value (digit (b.toNat / 16))
        let y ← value (digit (b.toNat % 16))
        let l ← read (format (c :: rest))
        pure (UInt8.ofNat (16 * x + y) :: l)) = _
      rw [h1, h2, this]
      exact congrArg (fun x => some (x :: c :: rest)) (byte_back b)

theorem format_nil {l : Bytes} (h : format l = []) : l = [] := by
  cases l with
  | nil => rfl
  | cons b rest => cases rest <;> cases h

/-- **C79.** Two fingerprints have the same string only if they are the same. -/
theorem format_injective (a b : Bytes) (h : format a = format b) : a = b := by
  by_cases ha : a = []
  · subst ha
    exact (format_nil h.symm).symm
  · have hb : b ≠ [] := by
      rintro rfl
      exact ha (format_nil h)
    have := format_reads a ha
    rw [h, format_reads b hb] at this
    exact (Option.some.inj this).symm

/-- **C79.** Certificates have the same fingerprint string exactly if they have the same SHA-256 hash. -/
theorem same_string_iff (sha256 : Bytes → Bytes) (a b : Bytes) :
    fingerprintStr sha256 a = fingerprintStr sha256 b ↔ sha256 a = sha256 b :=
  ⟨format_injective _ _, fun h => congrArg format h⟩

/-- Three characters for each byte, but for the last. -/
theorem format_length (l : Bytes) : (format l).length = 3 * l.length - 1 := by
  induction l with
  | nil => rfl
  | cons b rest ih =>
    cases rest with
    | nil => rfl
    | cons c rest =>
      have e : format (b :: c :: rest) = digit (b.toNat / 16) :: digit (b.toNat % 16) :: ':' :: format (c :: rest) := rfl
      rw [e]
      simp only [List.length_cons] at ih ⊢
      omega

/-- The string of a SHA-256 fingerprint has 95 characters. -/
theorem string_length (sha256 : Bytes → Bytes) (cert : Bytes) (h : (sha256 cert).length = 32) :
    (fingerprintStr sha256 cert).length = 95 := by
  have := format_length (sha256 cert)
  rw [h] at this
  exact this

example : format [0xAF, 0x12, 0xF6] = "AF:12:F6".toList := by decide
example : read "af:12".toList = none ∧ read "AF:1".toList = none ∧ read "AF12".toList = none := by decide

end Verif.Props.Fingerprint

import Verif.Model.Mask
import Verif.Props.Cipher
import Verif.Props.Schedule
/-!
# C82: masks of record numbers

RFC 9147, section 4.2.3: the mask is AES-ECB of the first sixteen bytes of the ciphertext, or ChaCha20 with the first
four as counter and the other twelve as nonce.
-/
namespace Verif.Props.Mask
open Verif Verif.Mask
open Verif.Sign (Maker)

/-- Lengths the primitives give. -/
structure Fit (p : Prim) : Prop where
  ecb : ∀ k s, s.length = 16 → (p.ecb k s).length = 16
  block : ∀ k c n, (p.block k c n).length = 64

/-- The number of four bytes, least significant first. -/
def Little : Bytes → Nat
  | [] => 0
  | b :: l => b.toNat + 256 * Little l

/-- RFC 9147, section 4.2.3. -/
def Rfc (p : Prim) (suite : Nat) (key sample : Bytes) : Bytes :=
  if suite = 0x1303 then p.block key (Little (sample.take 4)) (sample.drop 4) else p.ecb key sample

/-- The sample for which the library behind RustCrypto may have no block. -/
def Counter (sample : Bytes) : Nat := Little (sample.take 4)

theorem le32_eq {b : Bytes} (h : b.length = 4) : le32 b = Little b ∧ Little b < 2 ^ 32 := by
  match b, h with
  | [a, b, c, d], _ =>
    have := a.toNat_lt; have := b.toNat_lt; have := c.toNat_lt; have := d.toNat_lt
    simp only [le32, Little, List.getD_cons_zero, List.getD_cons_succ]
    omega

theorem two {l : Bytes} (h : 2 ≤ l.length) : ∃ a b r, l = a :: b :: r := by
  match l, h with
  | a :: b :: r, _ => exact ⟨a, b, r, rfl⟩

/-- **C82.** With a key of the length of the suite, the bytes of the mask that are used are the first two of the RFC's, and
there is no panic, unless the library refuses the block. -/
theorem mask_rfc (hf : Fit p) {suite : Nat} {x : Cipher.Suite13} (hx : Cipher.suite13 suite = some x) (m : Maker)
    {key sample : Bytes} (hk : key.length = x.keyLen) (hs : sample.length = 16)
    (hl : m = .rustCrypto → suite = 0x1303 → p.left (Counter sample) ≠ 0) :
    ∃ a b r, Rfc p suite key sample = a :: b :: r ∧ mask p m suite key sample = some (a, b) := by
  have h4 : (sample.take 4).length = 4 := by simp [hs]
  obtain ⟨e, lt⟩ := le32_eq h4
  unfold Cipher.suite13 at hx
  split at hx
  · cases hx
    rename_i h; subst h
    obtain ⟨a, b, r, g⟩ := two (l := p.ecb key sample) (by rw [hf.ecb _ _ hs]; decide)
    exact ⟨a, b, r, g, by simp [mask, encryptSn, aesSn, hk, g]⟩
  split at hx
  · cases hx
    rename_i h; subst h
    obtain ⟨a, b, r, g⟩ := two (l := p.ecb key sample) (by rw [hf.ecb _ _ hs]; decide)
    exact ⟨a, b, r, g, by simp [mask, encryptSn, aesSn, hk, g]⟩
  split at hx
  · cases hx
    rename_i h; subst h
    obtain ⟨a, b, r, g⟩ := two (l := p.block key (Little (sample.take 4)) (sample.drop 4)) (by rw [hf.block]; decide)
    refine ⟨a, b, r, g, ?_⟩
    cases m with
    | awsLc => simp [mask, encryptSn, chachaAws, hk, e, g]
    | rustCrypto =>
      have h0 : Little (sample.take 4) % 2 ^ 32 * 64 % 2 ^ 64 = Little (sample.take 4) * 64 := by omega
      have h1 : Little (sample.take 4) * 64 / 64 = Little (sample.take 4) := by omega
      have h2 : Little (sample.take 4) * 64 % 64 = 0 := by omega
      have h3 : p.left (Little (sample.take 4)) ≠ 0 := hl rfl rfl
      simp only [mask, encryptSn, chachaRust, hk, e, h0, h1, h2, if_true]
      simp [h3, g]
  · cases hx

/-- **C82.** The back ends use the same mask, so each reads the record numbers of the other. -/
theorem makers_agree (hf : Fit p) {suite : Nat} {x : Cipher.Suite13} (hx : Cipher.suite13 suite = some x) (m m' : Maker)
    {key sample : Bytes} (hk : key.length = x.keyLen) (hs : sample.length = 16)
    (hl : suite = 0x1303 → p.left (Counter sample) ≠ 0) :
    mask p m suite key sample = mask p m' suite key sample := by
  obtain ⟨a, b, r, g, h⟩ := mask_rfc hf hx m hk hs fun _ => hl
  obtain ⟨a', b', r', g', h'⟩ := mask_rfc hf hx m' hk hs fun _ => hl
  rw [g] at g'
  cases g'
  rw [h, h']

/-- **C82.** The key schedule makes keys for masks of the length the suite needs. -/
theorem sn_length {c : Schedule.Suite} (h : Props.Schedule.Sound c) {secret : Bytes} {k : E13.Keys}
    (hk : Verif.Schedule.epochKeys c secret = some k) : k.sn.length = c.keyLen := by
  rw [Props.Schedule.epoch_keys h] at hk
  cases hk
  exact Props.Schedule.expand_length h ..

/-- The model of the engine, whose masks are total, is the code where the mask does not panic. -/
theorem unmask_eq {f : Nat → Bytes → Bytes → Option (UInt8 × UInt8)} {env : E13.Env} {s : E13.Eng} {sl : Bytes}
    (h : ∀ suite k sample, (∃ ep, s.recvKeys ep = some k) → s.suite = some suite → sample.length = 16 →
      f suite k.sn sample = some (env.snMask suite k.sn sample)) :
    unmask f env s sl = E13.unmask env s sl := by
  unfold unmask E13.unmask
  cases sl with
  | nil => rfl
  | cons b r =>
    dsimp only
    split
    · rename_i hlen
      cases hk : s.recvKeys (s.resolveEpoch (Wire.epochBits b)) with
      | none => rfl
      | some k =>
        cases hs : s.suite with
        | none => rfl
        | some suite =>
          cases s.tag env with
          | none => rfl
          | some t =>
            dsimp only
            rw [h suite k _ ⟨_, hk⟩ hs (by rw [List.length_take, List.length_drop]; omega)]
    · rfl

/-- **C82 (partial).** A receiver with keys of the right length does not panic over the mask of any record, and unmasks it
as the model of the engine does, if the library refuses no block (missing: `chacha_refuses`). -/
theorem unmask_total_partial (hf : Fit p) (m : Maker) (env : E13.PEnv) {s : E13.Eng} {suite : Nat} {x : Cipher.Suite13}
    (hs : s.suite = some suite) (hx : Cipher.suite13 suite = some x)
    (hk : ∀ ep k, s.recvKeys ep = some k → k.sn.length = x.keyLen)
    (hl : m = .rustCrypto → suite = 0x1303 → ∀ c < 2 ^ 32, p.left c ≠ 0) (sl : Bytes) :
    unmask (mask p m) (with13 env p m).toEnv s sl = E13.unmask (with13 env p m).toEnv s sl := by
  refine unmask_eq fun su k sample ⟨ep, h1⟩ h2 h3 => ?_
  rw [hs] at h2; cases h2
  have h4 : (sample.take 4).length = 4 := by simp [h3]
  obtain ⟨a, b, r, _, g⟩ := mask_rfc hf hx m (hk ep k h1) h3 fun e1 e2 => hl e1 e2 _ (le32_eq h4).2
  show mask p m suite k.sn sample = some ((mask p m suite k.sn sample).getD (0, 0))
  rw [g]; rfl

/-- **C82.** Whoever can send a datagram chooses the sample: for a receiver with keys of some epoch there is, for all
sixteen bytes, a record that makes it panic exactly if the mask of these bytes panics. No key is needed. -/
theorem sample_chosen (f : Nat → Bytes → Bytes → Option (UInt8 × UInt8)) (env : E13.Env) {s : E13.Eng}
    {suite tag : Nat} {k : E13.Keys} (hs : s.suite = some suite) (ht : s.tag env = some tag) {bits : Nat}
    (hb : bits < 4) (hk : s.recvKeys (s.resolveEpoch bits) = some k) {sample : Bytes} (hl : sample.length = 16) :
    unmask f env s ([UInt8.ofNat (0x2C + bits), 0, 0, 0, 16] ++ sample) = none ↔ f suite k.sn sample = none := by
  have h1 : E13.cipherHeaderLen (UInt8.ofNat (0x2C + bits)) = 5 ∧ Wire.epochBits (UInt8.ofNat (0x2C + bits)) = bits := by
    have : bits = 0 ∨ bits = 1 ∨ bits = 2 ∨ bits = 3 := by omega
    rcases this with rfl | rfl | rfl | rfl <;> decide
  have h2 : sample.take 16 = sample := List.take_of_length_le (by omega)
  simp only [unmask, List.cons_append, List.nil_append, h1.1, h1.2, hk, hs, ht, List.drop_succ_cons, List.drop_zero, h2]
  rw [if_pos (by simp [hl])]
  cases f suite k.sn sample <;> simp

/-- The claim that the mask does not panic is false for ChaCha20 with RustCrypto if the library counts as we think: a
record whose ciphertext begins with four bytes 255 makes a receiver panic, whoever sent it, and a sender whose own
ciphertext begins so. -/
theorem chacha_refuses (p : Prim) (hp : p.left = chacha20Left) (env : E13.Env) {s : E13.Eng}
    {tag : Nat} {k : E13.Keys} (hs : s.suite = some 0x1303) (ht : s.tag env = some tag) {bits : Nat}
    (hb : bits < 4) (hk : s.recvKeys (s.resolveEpoch bits) = some k) {rest : Bytes} (hl : rest.length = 12) :
    unmask (mask p .rustCrypto) env s
      ([UInt8.ofNat (0x2C + bits), 0, 0, 0, 16] ++ ([255, 255, 255, 255] ++ rest)) = none := by
  rw [sample_chosen _ env hs ht hb hk (by simp [hl])]
  have : le32 (([255, 255, 255, 255] ++ rest : Bytes).take 4) = 2 ^ 32 - 1 := by
    show le32 [255, 255, 255, 255] = _
    decide
  simp only [mask, encryptSn, chachaRust, this, hp]
  split <;> simp_all [chacha20Left]

/-- For all other counters that library has a block. -/
theorem chacha_gives {c : Nat} (h : c < 2 ^ 32 - 1) : chacha20Left c ≠ 0 := by
  unfold chacha20Left
  omega

/-- What is assumed of the masks of two sides in C03, C04 and C81, for back ends that may differ. -/
theorem masks_match (hf : Fit p) (hl : ∀ c < 2 ^ 32, p.left c ≠ 0) (ea eb : E13.PEnv) (ma mb : Maker) {suite : Nat}
    {x : Cipher.Suite13} (hx : Cipher.suite13 suite = some x) {key sample : Bytes} (hk : key.length = x.keyLen)
    (hs : sample.length = 16) :
    (with13 ea p ma).snMask suite key sample = (with13 eb p mb).snMask suite key sample := by
  have h4 : (sample.take 4).length = 4 := by simp [hs]
  show (mask p ma suite key sample).getD (0, 0) = (mask p mb suite key sample).getD (0, 0)
  rw [makers_agree hf hx ma mb hk hs fun _ => hl _ (le32_eq h4).2]

/-! ## Instances -/

/-- Checksums for primitives. -/
def toy (left : Nat → Nat) : Prim where
  ecb k s := List.replicate 16 (E12.Demo.sum (k ++ s))
  block k c n := List.replicate 64 (E12.Demo.sum (k ++ n) + UInt8.ofNat c)
  left

theorem toy_fit : Fit (toy l) := ⟨fun _ _ _ => List.length_replicate, fun _ _ _ => List.length_replicate⟩

example : mask (toy chacha20Left) .rustCrypto 0x1303 (List.replicate 32 1) (List.replicate 16 2) =
    mask (toy chacha20Left) .awsLc 0x1303 (List.replicate 32 1) (List.replicate 16 2) ∧
    mask (toy chacha20Left) .awsLc 0x1303 (List.replicate 32 1) (List.replicate 16 2) ≠ none := by decide

/-- Ends that have ChaCha20 only. -/
def env (m : Maker) : E13.PEnv :=
  Verif.Cipher.with13
    (with13
      (Msg13.codec
        { MsgDemo.full13 with
          allowed := [0x1303]
          suiteUnknown := fun s => s != 0x1303
          epochKeys := fun _ s => some
            { key := s, iv := List.replicate 12 1, sn := List.replicate 32 (E12.Demo.sum s), secret := s } }
        150 [77, 78])
      (toy chacha20Left) m)
    Props.Cipher.toy m .chacha

/-- A run that meets the hypotheses of `chacha_refuses`: client and server with different back ends connect, and one
datagram of 21 bytes, made without any key, makes the server panic. The same with another counter does not. -/
theorem demo_panics :
    let d := E13.Demo.rounds (env .awsLc) (env .rustCrypto) 4
    let got (n : UInt8) := unmask (mask (toy chacha20Left) .rustCrypto) (env .rustCrypto).toEnv d.server.eng
      ([0x2F, 0, 0, 0, 16] ++ [255, 255, 255, n] ++ List.replicate 12 0)
    d.client.st = .awaitApplicationData ∧ d.server.st = .awaitApplicationData ∧ d.server.eng.suite = some 0x1303 ∧
    got 255 = none ∧ (got 254).isSome = true := by decide +kernel

end Verif.Props.Mask

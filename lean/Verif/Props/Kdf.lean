import Verif.Model.Kdf
import Verif.Model.Aead
import Verif.Lemmas.Bytes
/-!
# C51, C52: key derivation against the RFC definitions, unambiguous encodings
-/
namespace Verif.Props.Kdf
open Verif Verif.Kdf Verif.Aead

/-! ## C51: TLS 1.2 PRF, specification copied from RFC 5246 section 5 -/

/-- `A(0) = seed`, `A(i) = HMAC(secret, A(i-1))`. -/
def A (hmac : Hmac) (secret seed : Bytes) : Nat → Bytes
  | 0 => seed
  | i + 1 => hmac secret (A hmac secret seed i)

/-- `P_hash(secret, seed) = HMAC(secret, A(1) + seed) + HMAC(secret, A(2) + seed) + ...`, the first
`n` blocks. -/
def pHash (hmac : Hmac) (secret seed : Bytes) : Nat → Bytes
  | 0 => []
  | n + 1 => pHash hmac secret seed n ++ hmac secret (A hmac secret seed (n + 1) ++ seed)

theorem pHash_length (hmac : Hmac) (H : Nat) (hlen : ∀ k m, (hmac k m).length = H)
    (secret seed : Bytes) (n : Nat) : (pHash hmac secret seed n).length = n * H := by
  induction n with
  | zero => simp [pHash]
  | succ n ih => simp [pHash, ih, hlen, Nat.succ_mul]

theorem pHash_prefix (hmac : Hmac) (secret seed : Bytes) (n k : Nat) :
    ∃ t, pHash hmac secret seed (n + k) = pHash hmac secret seed n ++ t := by
  induction k with
  | zero => exact ⟨[], by simp⟩
  | succ k ih =>
    obtain ⟨t, ht⟩ := ih
    exact ⟨t ++ hmac secret (A hmac secret seed (n + k + 1) ++ seed), by
      rw [← Nat.add_assoc, pHash, ht, List.append_assoc]⟩

theorem prfLoop_spec (hmac : Hmac) (H : Nat) (hH : 0 < H) (hlen : ∀ k m, (hmac k m).length = H)
    (secret ls : Bytes) (L : Nat) :
    ∀ (fuel j : Nat) (a out : Bytes), out = (pHash hmac secret ls j).take L →
      (j * H < L → a = A hmac secret ls (j + 1)) → L ≤ fuel + j * H →
      prfLoop hmac secret ls L fuel a out = (pHash hmac secret ls (j + fuel)).take L := by
  intro fuel
  induction fuel with
  | zero =>
    intro j a out ho _ hf
    simp [prfLoop, ho]
  | succ fuel ih =>
    intro j a out ho ha hf
    have hjl := pHash_length hmac H hlen secret ls j
    have hol : out.length = min L (j * H) := by rw [ho, List.length_take, hjl]
    simp only [prfLoop]
    by_cases hlt : out.length < L
    · rw [if_pos hlt]
      have hjL : j * H < L := by omega
      have ha' := ha hjL
      subst ha'
      have houtfull : out = pHash hmac secret ls j := by
        rw [ho]; exact List.take_of_length_le (by omega)
      have hb : (hmac secret (A hmac secret ls (j + 1) ++ ls)).length = H := hlen _ _
      have hnew : out ++ (hmac secret (A hmac secret ls (j + 1) ++ ls)).take
          (min (L - out.length) (hmac secret (A hmac secret ls (j + 1) ++ ls)).length) =
          (pHash hmac secret ls (j + 1)).take L := by
        rw [pHash, List.take_append, hb, houtfull, hjl,
          List.take_of_length_le (by rw [hjl]; omega : (pHash hmac secret ls j).length ≤ L)]
        congr 1
        rcases Nat.le_total (L - j * H) H with h | h
        · rw [Nat.min_eq_left h]
        · rw [Nat.min_eq_right h, List.take_of_length_le (by rw [hb]; exact Nat.le_refl _),
            List.take_of_length_le (by rw [hb]; exact h)]
      have hmul : (j + 1) * H = j * H + H := Nat.succ_mul j H
      rw [hnew]
      have hfin : j + (fuel + 1) = (j + 1) + fuel := by omega
      rw [hfin]
      split
      · exact ih (j + 1) _ _ rfl (fun _ => rfl) (by omega)
      · rename_i hge
        have hl' : ((pHash hmac secret ls (j + 1)).take L).length = min L ((j + 1) * H) := by
          rw [List.length_take, pHash_length hmac H hlen]
        refine ih (j + 1) _ _ rfl (fun h => absurd h ?_) (by omega)
        rw [hl'] at hge; omega
    · rw [if_neg hlt]
      have hjL : L ≤ j * H := by omega
      rw [ho]
      obtain ⟨t, ht⟩ := pHash_prefix hmac secret ls j (fuel + 1)
      rw [ht, List.take_append_of_le_length (by rw [hjl]; exact hjL)]

/-- **C51 (PRF).** For every HMAC with a fixed non-zero output length, every secret, label, seed and
requested length, the code's loop returns the first `len` bytes of RFC 5246's `P_hash`; `len` blocks of
the infinite stream always suffice. -/
theorem prf_eq_rfc5246 (hmac : Hmac) (H : Nat) (hH : 0 < H) (hlen : ∀ k m, (hmac k m).length = H)
    (secret label seed : Bytes) (len : Nat) :
    prfTls12 hmac secret label seed len = (pHash hmac secret (label ++ seed) len).take len := by
  unfold prfTls12
  have := prfLoop_spec hmac H hH hlen secret (label ++ seed) len len 0
    (hmac secret (label ++ seed)) [] (by simp [pHash]) (fun _ => rfl) (by omega)
  simpa using this

/-- Exactly the requested number of bytes. -/
theorem prf_length (hmac : Hmac) (H : Nat) (hH : 0 < H) (hlen : ∀ k m, (hmac k m).length = H)
    (secret label seed : Bytes) (len : Nat) :
    (prfTls12 hmac secret label seed len).length = len := by
  rw [prf_eq_rfc5246 hmac H hH hlen, List.length_take, pHash_length hmac H hlen]
  exact Nat.min_eq_left (Nat.le_mul_of_pos_right len hH)

/-- A shorter request is a prefix of a longer one. -/
theorem prf_prefix (hmac : Hmac) (H : Nat) (hH : 0 < H) (hlen : ∀ k m, (hmac k m).length = H)
    (secret label seed : Bytes) (m n : Nat) (h : m ≤ n) :
    (prfTls12 hmac secret label seed n).take m = prfTls12 hmac secret label seed m := by
  rw [prf_eq_rfc5246 hmac H hH hlen, prf_eq_rfc5246 hmac H hH hlen, List.take_take,
    Nat.min_eq_left h]
  obtain ⟨t, ht⟩ := pHash_prefix hmac secret (label ++ seed) m (n - m)
  have hnm : m + (n - m) = n := by omega
  rw [hnm] at ht
  rw [ht, List.take_append_of_le_length]
  rw [pHash_length hmac H hlen]; exact Nat.le_mul_of_pos_right m hH

/-! ## C51: HKDF, specification copied from RFC 5869 section 2.3 -/

/-- `T(0) = ""`, `T(i) = HMAC(PRK, T(i-1) | info | i)`. -/
def T (hmac : Hmac) (prk info : Bytes) : Nat → Bytes
  | 0 => []
  | i + 1 => hmac prk (T hmac prk info i ++ info ++ [UInt8.ofNat (i + 1)])

/-- `T(1) | T(2) | ... | T(n)`. -/
def tConcat (hmac : Hmac) (prk info : Bytes) : Nat → Bytes
  | 0 => []
  | n + 1 => tConcat hmac prk info n ++ T hmac prk info (n + 1)

theorem tConcat_length (hmac : Hmac) (H : Nat) (hlen : ∀ k m, (hmac k m).length = H)
    (prk info : Bytes) (n : Nat) : (tConcat hmac prk info n).length = n * H := by
  induction n with
  | zero => simp [tConcat]
  | succ n ih => simp [tConcat, ih, T, hlen, Nat.succ_mul]

theorem expandLoop_spec (hmac : Hmac) (H : Nat) (hlen : ∀ k m, (hmac k m).length = H)
    (prk info : Bytes) (L : Nat) :
    ∀ (n j : Nat), expandLoop hmac prk info L n (j + 1) (T hmac prk info j)
        ((tConcat hmac prk info j).take L) = (tConcat hmac prk info (j + n)).take L := by
  intro n
  induction n with
  | zero => intro j; simp [expandLoop]
  | succ n ih =>
    intro j
    have hT : (T hmac prk info (j + 1)).length = H := by rw [T]; exact hlen _ _
    have hnew : (tConcat hmac prk info j).take L ++
        (T hmac prk info (j + 1)).take (min (L - ((tConcat hmac prk info j).take L).length)
          (T hmac prk info (j + 1)).length) = (tConcat hmac prk info (j + 1)).take L := by
      rw [tConcat, List.take_append, List.length_take]
      congr 1
      rw [hT]
      have h1 : L - min L (tConcat hmac prk info j).length = L - (tConcat hmac prk info j).length := by
        omega
      rw [h1]
      rcases Nat.le_total (L - (tConcat hmac prk info j).length) H with h | h
      · rw [Nat.min_eq_left h]
      · rw [Nat.min_eq_right h, List.take_of_length_le (by omega), List.take_of_length_le (by omega)]
    have := ih (j + 1)
    rw [show j + (n + 1) = j + 1 + n by omega, ← this, ← hnew]
    rfl

/-- **C51 (HKDF).** `hkdf_expand` is RFC 5869's expansion for every output length up to 255 blocks and
refuses longer requests. -/
theorem hkdf_eq_rfc5869 (hmac : Hmac) (H : Nat) (hH : 0 < H) (hlen : ∀ k m, (hmac k m).length = H)
    (prk info : Bytes) (L : Nat) :
    hkdfExpand hmac H prk info L =
      if L ≤ 255 * H then some ((tConcat hmac prk info ((L + H - 1) / H)).take L) else none := by
  unfold hkdfExpand
  have := expandLoop_spec hmac H hlen prk info L ((L + H - 1) / H) 0
  simp only [tConcat, T, List.take_nil, Nat.zero_add] at this
  simp only
  have hiff : (L + H - 1) / H > 255 ↔ ¬ L ≤ 255 * H := by
    constructor
    · intro h hle
      have : (L + H - 1) / H < 256 := (Nat.div_lt_iff_lt_mul hH).2 (by omega)
      omega
    · intro h
      have : 256 ≤ (L + H - 1) / H := (Nat.le_div_iff_mul_le hH).2 (by omega)
      omega
  by_cases hc : L ≤ 255 * H
  · rw [if_neg (by rw [hiff]; simpa using hc), if_pos hc, this]
  · rw [if_pos (hiff.2 hc), if_neg hc]

theorem hkdf_length (hmac : Hmac) (H : Nat) (hH : 0 < H) (hlen : ∀ k m, (hmac k m).length = H)
    (prk info out : Bytes) (L : Nat) (h : hkdfExpand hmac H prk info L = some out) :
    out.length = L := by
  rw [hkdf_eq_rfc5869 hmac H hH hlen] at h
  split at h
  · cases h
    rw [List.length_take, tConcat_length hmac H hlen]
    apply Nat.min_eq_left
    have hdm := Nat.div_add_mod (L + H - 1) H
    have hm := Nat.mod_lt (L + H - 1) hH
    rw [Nat.mul_comm]
    omega
  · cases h

/-- **C51 (labels).** Two requests with the same prefix that yield the same HKDF label are the same
request: length, label and context can all be read back. -/
theorem hkdf_label_injective (pfx l l' c c' : Bytes) (n n' : Nat) (x : Bytes)
    (h : buildHkdfLabel pfx l c n = some x) (h' : buildHkdfLabel pfx l' c' n' = some x) :
    n = n' ∧ l = l' ∧ c = c' := by
  unfold buildHkdfLabel at h h'
  simp only at h h'
  split at h; · cases h
  split at h; · cases h
  split at h; · cases h
  split at h'; · cases h'
  split at h'; · cases h'
  split at h'; · cases h'
  rename_i a1 a2 a3 b1 b2 b3
  have heq : beBytes 2 n ++ [UInt8.ofNat (pfx.length + l.length)] ++ pfx ++ l ++
      [UInt8.ofNat c.length] ++ c = beBytes 2 n' ++ [UInt8.ofNat (pfx.length + l'.length)] ++ pfx ++
      l' ++ [UInt8.ofNat c'.length] ++ c' := by
    rw [Option.some.inj h, Option.some.inj h']
  simp only [List.append_assoc] at heq
  obtain ⟨e1, heq⟩ := List.append_inj heq (by simp)
  have hn := beBytes_inj (by omega) (by omega) e1
  simp only [List.cons_append, List.nil_append, List.cons.injEq] at heq
  obtain ⟨e2, heq⟩ := heq
  have hl : l.length = l'.length := by
    have := congrArg UInt8.toNat e2
    simp only [UInt8.toNat_ofNat'] at this
    omega
  obtain ⟨_, heq⟩ := List.append_inj heq rfl
  obtain ⟨e3, heq⟩ := List.append_inj heq hl
  simp only [List.cons.injEq] at heq
  exact ⟨hn, e3, heq.2⟩

/-- Non-vacuity with a toy 2-byte "HMAC". -/
def toyHmac : Hmac := fun k m => [UInt8.ofNat (ofBe k + m.length), (m.headD 7) + 1]
example : ∀ k m, (toyHmac k m).length = 2 := by intros; rfl
example : prfTls12 toyHmac [1] [2, 3] [4] 5 = [6, 5, 6, 4, 6] := by decide
example : hkdfExpand toyHmac 2 [1] [2] 3 = some [3, 3, 5] := by decide
example : buildHkdfLabel dtls13Prefix [107] [9] 16 =
    some [0, 16, 7, 0x64, 0x74, 0x6c, 0x73, 0x31, 0x33, 107, 1, 9] := by decide

/-! ## C52 -/

theorem xorBytes_inj (iv a b : Bytes) (ha : a.length = iv.length) (hb : b.length = iv.length)
    (h : xorBytes iv a = xorBytes iv b) : a = b := by
  induction iv generalizing a b with
  | nil =>
    have h1 : a = [] := List.length_eq_zero_iff.1 (by simpa using ha)
    have h2 : b = [] := List.length_eq_zero_iff.1 (by simpa using hb)
    rw [h1, h2]
  | cons x iv ih =>
    match a, b with
    | [], _ => simp at ha
    | _, [] => simp at hb
    | p :: a, q :: b =>
      simp only [xorBytes, List.zipWith_cons_cons, List.cons.injEq] at h
      obtain ⟨h1, h2⟩ := h
      have := ih a b (by simpa using ha) (by simpa using hb) h2
      rw [this, (UInt8.xor_right_inj x).1 h1]

/-- **C52 (nonce, 1.3 and 1.2 ChaCha20).** For a fixed 12-byte IV, equal nonces mean equal sequence
numbers (64-bit). -/
theorem nonce_xor_injective (iv : Bytes) (s t : Nat) (hiv : iv.length = 12) (hs : s < 2 ^ 64)
    (ht : t < 2 ^ 64) (h : nonceXor iv s = nonceXor iv t) : s = t := by
  unfold nonceXor at h
  obtain ⟨_, h2⟩ := List.append_inj h rfl
  have := xorBytes_inj (iv.drop 4) _ _ (by simp [hiv]) (by simp [hiv]) h2
  exact beBytes_inj (by omega) (by omega) this

/-- **C52 (nonce, 1.2).** The 64-bit number put into the nonce determines epoch and sequence number. -/
theorem seq64_injective (e s e' s' : Nat) (he : e < 2 ^ 16) (he' : e' < 2 ^ 16) (hs : s < 2 ^ 48)
    (hs' : s' < 2 ^ 48) (h : seq64 e s = seq64 e' s') : e = e' ∧ s = s' := by
  have key : ∀ a b : Nat, a < 2 ^ 16 → b < 2 ^ 48 → seq64 a b = a * 2 ^ 48 + b := by
    intro a b ha hb
    unfold seq64
    rw [Nat.shiftLeft_eq, Nat.mul_comm, ← Nat.two_pow_add_eq_or_of_lt hb a]
    omega
  rw [key _ _ he hs, key _ _ he' hs'] at h
  omega

/-- **C52 (nonce, 1.2 AES-GCM).** For a fixed IV the nonce determines the explicit part, and building
it never fails for a 4-byte IV and an 8-byte explicit part. -/
theorem nonce_new_injective (iv e e' n : Bytes) (h : nonceNew iv e = some n)
    (h' : nonceNew iv e' = some n) : e = e' := by
  unfold nonceNew at h h'
  split at h
  · split at h'
    · have := Option.some.inj (h.trans h'.symm)
      exact List.append_cancel_left this
    · cases h'
  · cases h

theorem nonce_new_total (iv e : Bytes) (h : iv.length = 4) (h' : e.length = 8) :
    (nonceNew iv e).isSome := by
  simp [nonceNew, h, h']

/-- **C52 (additional data, 1.2).** -/
theorem aad12_injective (ct ct' : UInt8) (e e' s s' l l' : Nat) (he : e < 2 ^ 16) (he' : e' < 2 ^ 16)
    (hs : s < 2 ^ 48) (hs' : s' < 2 ^ 48) (hl : l < 2 ^ 16) (hl' : l' < 2 ^ 16)
    (h : aad12 ct e s l = aad12 ct' e' s' l') : ct = ct' ∧ e = e' ∧ s = s' ∧ l = l' := by
  have hd : ∀ v, (beBytes 8 v).drop 2 = beBytes 6 v := fun v => rfl
  unfold aad12 at h
  simp only [hd, List.append_assoc] at h
  obtain ⟨h1, h⟩ := List.append_inj h (by simp)
  obtain ⟨h2, h⟩ := List.append_inj h (by simp)
  simp only [List.cons_append, List.nil_append, List.cons.injEq, true_and] at h
  obtain ⟨h3, h4⟩ := h
  exact ⟨h3, beBytes_inj (by omega) (by omega) h1, beBytes_inj (by omega) (by omega) h2,
    beBytes_inj (by omega) (by omega) h4⟩

example : nonceXor [1, 2, 3, 4, 5, 6, 7, 8, 9, 10, 11, 12] 0x0102 =
    [1, 2, 3, 4, 5, 6, 7, 8, 9, 10, 10, 14] := by decide
example : aad12 23 1 5 300 = [0, 1, 0, 0, 0, 0, 0, 5, 23, 0xfe, 0xfd, 1, 44] := by decide

/-! ## C51: extraction and the label structure -/

/-- RFC 5869, section 2.2: the salt is optional and defaults to `HashLen` zero bytes. -/
def rfcExtract (hmac : Hmac) (hashLen : Nat) (salt : Option Bytes) (ikm : Bytes) : Bytes :=
  match salt with
  | none => hmac (List.replicate hashLen 0) ikm
  | some s => hmac s ikm

/-- **C51 (extract).** Passing no salt (the empty slice) extracts with the RFC default salt, and a
non-empty salt is used as it is. -/
theorem hkdf_extract_eq_rfc5869 (hmac : Hmac) (hashLen : Nat) (salt ikm : Bytes) :
    hkdfExtract hmac hashLen salt ikm =
      rfcExtract hmac hashLen (if salt = [] then none else some salt) ikm := by
  cases salt <;> simp [hkdfExtract, rfcExtract]

/-- RFC 8446, section 3.4: a vector with a one-byte length. -/
def opaque8 (x : Bytes) : Bytes := UInt8.ofNat x.length :: x

/-- **C51 (label).** When the label is built it is the RFC 8446 `HkdfLabel`: two bytes of output
length, the prefixed label and the context, each with a length byte that is exact. It is refused exactly
when one of the three lengths does not fit. -/
theorem hkdf_label_eq_rfc8446 (pfx label context : Bytes) (n : Nat) :
    buildHkdfLabel pfx label context n =
      if (pfx ++ label).length < 256 ∧ context.length < 256 ∧ n < 65536 then
        some (beBytes 2 n ++ opaque8 (pfx ++ label) ++ opaque8 context)
      else none := by
  simp only [buildHkdfLabel, opaque8, List.length_append]
  repeat' split
  all_goals first | omega | simp

example : hkdfExtract (fun k m => k ++ m) 2 [] [9] = [0, 0, 9] := by decide
example : buildHkdfLabel [1] [2] [3, 4] 300 = some [1, 44, 2, 1, 2, 2, 3, 4] := by decide

end Verif.Props.Kdf

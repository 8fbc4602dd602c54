import Verif.Lemmas.Msg
/-!
# The presentation language of TLS

What RFC 5246 section 4 says about numbers and vectors, written without the model's helpers. The layouts
of the handshake messages of `Verif.Props.Msg12` and `Verif.Props.Msg13` are stated in it.
-/
namespace Verif.Props.Msg
open Verif Verif.Msg

/-- A number of `k` bytes, most significant byte first. -/
def num (k v : Nat) : Bytes := (List.range k).reverse.map fun j => UInt8.ofNat (v / 256 ^ j)

/-- A vector whose length is given in `k` bytes. -/
def prefixed (k : Nat) (b : Bytes) : Bytes := num k b.length ++ b

/-- An extension, RFC 5246 section 7.4.1.4. -/
def extension (e : Nat × Bytes) : Bytes := num 2 e.1 ++ prefixed 2 e.2

/-- A ClientHello of DTLS, RFC 6347 section 4.2.1 and RFC 9147 section 5.3. -/
def clientHello (version : Nat) (random sid cookie : Bytes) (suites : List Nat) (compressions : Bytes)
    (exts : List (Nat × Bytes)) : Bytes :=
  num 2 version ++ random ++ prefixed 1 sid ++ prefixed 1 cookie ++ prefixed 2 (suites.flatMap (num 2))
    ++ prefixed 1 compressions ++ prefixed 2 (exts.flatMap extension)

/-- A ServerHello, RFC 5246 section 7.4.1.3 and RFC 8446 section 4.1.3. -/
def serverHello (version : Nat) (random sid : Bytes) (suite : Nat) (compression : UInt8)
    (exts : List (Nat × Bytes)) : Bytes :=
  num 2 version ++ random ++ prefixed 1 sid ++ num 2 suite ++ [compression] ++ prefixed 2 (exts.flatMap extension)

theorem num_eq (k v : Nat) : num k v = beBytes k v := by
  induction k with
  | zero => rfl
  | succ k ih =>
    have h : num (k + 1) v = UInt8.ofNat (v / 256 ^ k) :: num k v := by
      simp [num, List.range_succ]
    rw [h, ih]; rfl

theorem prefixed_eq (k : Nat) (b : Bytes) : prefixed k b = putVec k b := by
  rw [prefixed, num_eq]; rfl

theorem extension_eq : extension = putExt := by
  funext e
  rw [extension, num_eq, prefixed_eq]; rfl

theorem clientHello_eq (version : Nat) (random sid cookie : Bytes) (suites : List Nat) (cs : Bytes)
    (exts : List (Nat × Bytes)) :
    clientHello version random sid cookie suites cs exts =
      putHead version random sid cookie ++ putList 2 suites ++ putVec 1 cs ++ putExts exts := by
  have h : (num 2 : Nat → Bytes) = beBytes 2 := by funext v; exact num_eq 2 v
  simp only [clientHello, prefixed_eq, extension_eq, h, putHead, putList, putExts]

theorem serverHello_eq (version : Nat) (random sid : Bytes) (suite : Nat) (c : UInt8)
    (exts : List (Nat × Bytes)) :
    serverHello version random sid suite c exts =
      beBytes 2 version ++ random ++ putVec 1 sid ++ beBytes 2 suite ++ [c] ++ putExts exts := by
  simp only [serverHello, prefixed_eq, extension_eq, num_eq, putExts]

/-- The fields of a ClientHello fit their lengths. -/
structure HelloFits (version : Nat) (random sid cookie : Bytes) (suites : List Nat) (cs : Bytes)
    (exts : List (Nat × Bytes)) : Prop where
  version : version < 65536
  random : random.length = 32
  sid : sid.length ≤ 32
  cookie : cookie.length ≤ 255
  suites : (∀ s ∈ suites, s < 65536) ∧ suites.length < 32768
  compressions : cs.length < 256
  exts : (∀ e ∈ exts, e.1 < 65536 ∧ e.2.length < 65536) ∧ (exts.flatMap extension).length < 65536

/-- No extension of a type of the list occurs twice. -/
def Once (supported : List Nat) (es : List (Nat × Bytes)) : Prop :=
  ∀ t ∈ supported, (es.filter fun e => e.1 == t).length ≤ 1

instance (supported : List Nat) (es : List (Nat × Bytes)) : Decidable (Once supported es) :=
  inferInstanceAs (Decidable (∀ t ∈ supported, (es.filter fun e => e.1 == t).length ≤ 1))

/-- Counting by types is the same as no type twice among those kept. -/
theorem once_iff (supported : List Nat) (es : List (Nat × Bytes)) :
    Once supported es ↔ ((known supported es).map (·.1)).Nodup := by
  induction es with
  | nil => simp [Once, known]
  | cons e es ih =>
    by_cases hk : supported.contains e.1 = true
    · have hkn : known supported (e :: es) = e :: known supported es := by
        simp only [known, List.filter_cons, hk, if_true]
      rw [hkn, List.map_cons, List.nodup_cons, ← ih]
      constructor
      · intro h
        refine ⟨?_, ?_⟩
        · intro hm
          obtain ⟨y, hy, hye⟩ := List.mem_map.mp hm
          have hy' := (List.mem_filter.mp hy).1
          have h1 := h e.1 (by simpa using hk)
          rw [List.filter_cons, if_pos (by simp)] at h1
          have : y ∈ es.filter fun x => x.1 == e.1 := List.mem_filter.mpr ⟨hy', by simpa using hye⟩
          have := List.length_pos_of_mem this
          simp only [List.length_cons] at h1
          omega
        · intro t ht
          have h1 := h t ht
          rw [List.filter_cons] at h1
          split at h1
          · simp only [List.length_cons] at h1; omega
          · exact h1
      · rintro ⟨h1, h2⟩ t ht
        rw [List.filter_cons]
        split
        · next he =>
          have he : e.1 = t := by simpa using he
          have : (es.filter fun x => x.1 == t) = [] := by
            rw [List.filter_eq_nil_iff]
            intro y hy hyt
            refine h1 (List.mem_map.mpr ⟨y, List.mem_filter.mpr ⟨hy, ?_⟩, ?_⟩)
            · have : y.1 = t := by simpa using hyt
              rw [this, ← he]; exact hk
            · have : y.1 = t := by simpa using hyt
              rw [this, he]
          rw [this]; simp
        · exact h2 t ht
    · have hkn : known supported (e :: es) = known supported es := by
        simp only [known, List.filter_cons, hk]; rfl
      rw [hkn, ← ih]
      constructor
      · intro h t ht
        have h1 := h t ht
        rw [List.filter_cons] at h1
        split at h1
        · simp only [List.length_cons] at h1; omega
        · exact h1
      · intro h t ht
        rw [List.filter_cons, if_neg]
        · exact h t ht
        · intro he
          have he : e.1 = t := by simpa using he
          rw [he] at hk
          exact hk (by simpa using ht)

/-- A list without repetitions whose elements are all in another is no longer than it. -/
theorem nodup_le {l s : List Nat} (hn : l.Nodup) (h : ∀ x ∈ l, x ∈ s) : l.length ≤ s.length := by
  induction l generalizing s with
  | nil => exact Nat.zero_le _
  | cons a l ih =>
    rw [List.nodup_cons] at hn
    have ha : a ∈ s := h a (by simp)
    have := ih (s := s.erase a) hn.2 (by
      intro x hx
      have hne : x ≠ a := by intro e; rw [e] at hx; exact hn.1 hx
      exact (List.mem_erase_of_ne hne).mpr (h x (by simp [hx])))
    rw [List.length_erase_of_mem ha] at this
    have := List.length_pos_of_mem ha
    simp only [List.length_cons]; omega

theorem known_le {supported : List Nat} {es : List (Nat × Bytes)}
    (h : ((known supported es).map (·.1)).Nodup) : (known supported es).length ≤ supported.length := by
  have := nodup_le (s := supported) h (by
    intro t ht
    obtain ⟨y, hy, rfl⟩ := List.mem_map.mp ht
    simpa using (List.mem_filter.mp hy).2)
  rwa [List.length_map] at this

/-- A vector too long for its length field is cut: the rest is left over. -/
theorem vec_long (n : Nat) (b : Bytes) :
    vec n (putVec n b) = .ok (b.drop (b.length % 256 ^ n)) (b.take (b.length % 256 ^ n)) := by
  unfold vec putVec
  rw [beNat_append _ _ _ (beBytes_length n _), ofBe_beBytes]
  simp only [Wire.PRes.bind_ok']
  unfold take
  have hl : b.length % 256 ^ n ≤ b.length := Nat.mod_le _ _
  rw [if_neg (by omega)]

end Verif.Props.Msg

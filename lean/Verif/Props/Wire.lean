import Verif.Lemmas.Wire
/-!
# C25, C26, C27, C28: framing of records, datagrams, handshake messages and inner plaintexts
-/
namespace Verif.Props.Wire
open Verif Verif.Wire

/-! ## C25: record headers -/

/-- A DTLS 1.2 record within field widths whose declared length is the length of its fragment and,
in epoch 0, whose content type is one that may be sent unprotected. -/
def WF12 (r : Rec12) : Prop :=
  (r.version = 0xFEFF ∨ r.version = 0xFEFD) ∧ r.epoch < 2 ^ 16 ∧ r.seq < 2 ^ 48 ∧
  r.length = r.fragment.length ∧ r.length < 2 ^ 16 ∧
  (r.epoch = 0 → r.ctype = 20 ∨ r.ctype = 21 ∨ r.ctype = 22)

instance (r : Rec12) : Decidable (WF12 r) := by unfold WF12; infer_instance

/-- **C25 (1.2, encode then decode).** -/
theorem record12_roundtrip (r : Rec12) (rest : Bytes) (h : WF12 r) :
    parse12 (serialize12 r ++ rest) 0 = .ok rest r := by
  obtain ⟨hv, he, hs, hl, hl2, hc⟩ := h
  have hv2 : r.version < 256 ^ 2 := by omega
  have : UInt8.ofNat r.ctype.toNat = r.ctype := by simp
  unfold parse12 serialize12
  simp only [List.cons_append, List.append_assoc, beNat_one_cons, PRes.bind_ok',
    beNat_beBytes 2 r.version _ hv2, beNat_beBytes 2 r.epoch _ (by omega : r.epoch < 256 ^ 2),
    beNat_beBytes 6 r.seq _ (by omega : r.seq < 256 ^ 6),
    beNat_beBytes 2 r.length _ (by omega : r.length < 256 ^ 2), this]
  rw [if_neg (by simp only [verDtls10, verDtls12]; omega), if_neg (by rintro ⟨h0, h1, h2, h3⟩; rcases hc h0 with h | h | h <;> simp_all),
    if_neg (by omega)]
  simp [take_append _ _ _ hl.symm]

/-- **C25 (1.2, decode then encode).** Nothing is accepted that is not the encoding of the decoded
record followed by the unread rest. -/
theorem record12_exact (input rest : Bytes) (r : Rec12) (h : parse12 input 0 = .ok rest r) :
    WF12 r ∧ input = serialize12 r ++ rest := by
  unfold parse12 at h
  obtain ⟨i1, ct, h1, h⟩ := bind_ok h
  obtain ⟨b, rfl, rfl⟩ := beNat_one_ok h1
  obtain ⟨i2, v, h2, h⟩ := bind_ok h
  obtain ⟨bv, rfl, hbv, rfl⟩ := beNat_ok h2
  split at h
  · cases h
  rename_i hver
  obtain ⟨i3, e, h3, h⟩ := bind_ok h
  obtain ⟨be, rfl, hbe, rfl⟩ := beNat_ok h3
  simp only at h
  split at h
  · cases h
  rename_i hct
  obtain ⟨i4, s, h4, h⟩ := bind_ok h
  obtain ⟨bs, rfl, hbs, rfl⟩ := beNat_ok h4
  obtain ⟨i5, l, h5, h⟩ := bind_ok h
  obtain ⟨bl, rfl, hbl, rfl⟩ := beNat_ok h5
  split at h
  · cases h
  obtain ⟨i6, f, h6, hfin⟩ := bind_ok h
  obtain ⟨hf, hfl⟩ := take_ok h6
  simp only [List.drop_zero] at hf
  subst hf
  cases hfin
  have l1 := ofBe_lt be; have l2 := ofBe_lt bs; have l3 := ofBe_lt bl
  rw [hbe] at l1; rw [hbs] at l2; rw [hbl] at l3
  refine ⟨⟨?_, ?_, ?_, ?_, ?_, ?_⟩, ?_⟩
  · simp only; simp only [verDtls10, verDtls12] at hver; omega
  · simpa using l1
  · simpa using l2
  · exact hfl.symm
  · simpa using l3
  · intro h0
    simp only at h0
    have hb : UInt8.ofNat b.toNat = b := by simp
    simp only [hb] at hct ⊢
    by_cases hx : b = 20
    · exact Or.inl hx
    by_cases hy : b = 21
    · exact Or.inr (Or.inl hy)
    by_cases hz : b = 22
    · exact Or.inr (Or.inr hz)
    · exact absurd ⟨h0, hx, hy, hz⟩ hct
  · unfold serialize12
    have q1 := beBytes_ofBe bv; have q2 := beBytes_ofBe be
    have q3 := beBytes_ofBe bs; have q4 := beBytes_ofBe bl
    rw [hbv] at q1; rw [hbe] at q2; rw [hbs] at q3; rw [hbl] at q4
    simp [q1, q2, q3, q4]

example : WF12 { ctype := 23, version := 0xFEFD, epoch := 1, seq := 281474976710655, length := 3,
                 fragment := [1, 2, 3] } := by decide
example : WF12 { ctype := 22, version := 0xFEFF, epoch := 0, seq := 7, length := 0,
                 fragment := [] } := by decide
example : ¬ WF12 { ctype := 23, version := 0xFEFD, epoch := 0, seq := 7, length := 0,
                   fragment := [] } := by decide

/-- **C25 (1.3 unprotected).** -/
theorem plain13_roundtrip (ct : UInt8) (seq : Nat) (fragment rest : Bytes)
    (hct : ct = 21 ∨ ct = 22 ∨ ct = 26) (hs : seq < 2 ^ 48) (hl : fragment.length < 2 ^ 16) :
    parse13 (serializePlain13 ct 0 seq fragment.length fragment ++ rest) =
      .ok rest { ctype := ct, epoch := 0, seq := seq, length := fragment.length, headerLen := 13,
                 fragment := fragment } := by
  have hc : isCiphertextHeader ct = false := by rcases hct with h | h | h <;> subst h <;> decide
  have : UInt8.ofNat ct.toNat = ct := by simp
  unfold serializePlain13 parse13
  simp only [List.cons_append, hc]
  unfold parsePlain13
  simp only [List.append_assoc, beNat_one_cons, PRes.bind_ok',
    beNat_beBytes 2 verDtls12 _ (by decide), beNat_beBytes 2 0 _ (by decide : 0 < 256 ^ 2),
    beNat_beBytes 6 seq _ (by omega : seq < 256 ^ 6),
    beNat_beBytes 2 fragment.length _ (by omega : fragment.length < 256 ^ 2), this]
  simp only [take_append _ _ _ rfl, PRes.bind_ok']
  rcases hct with h | h | h <;> subst h <;> simp

/-- **C25 (1.3 protected).** The unified header carries the two low epoch bits and the sixteen low
sequence bits. -/
theorem cipher13_roundtrip (epoch seq : Nat) (fragment rest : Bytes)
    (hl : fragment.length < 2 ^ 16) :
    parse13 (serializeCipher13 epoch seq fragment.length fragment ++ rest) =
      .ok rest { ctype := 23, epoch := epoch % 4, seq := seq % 2 ^ 16, length := fragment.length,
                 headerLen := 5, fragment := fragment } := by
  obtain ⟨h1, h2, h3, h4, h5⟩ := cipherFlags_spec epoch
  have hf : UInt8.ofNat (cipherFlags epoch).toNat = cipherFlags epoch := by simp
  unfold serializeCipher13 parse13
  simp only [List.cons_append, h1]
  unfold parseCipher13
  simp only [List.append_assoc, beNat_one_cons, PRes.bind_ok', hf, h2, h3, h4, h5, if_true,
    beNat_append _ _ _ (beBytes_length 2 seq),
    beNat_beBytes 2 fragment.length _ (by omega : fragment.length < 256 ^ 2)]
  simp [take_append _ _ _ rfl, ofBe_beBytes]

/-- A protected record never reads as an unprotected one and conversely: the first byte of every
record the library writes decides. -/
theorem first_byte_decides (ct : UInt8) (epoch : Nat) (h : ct = 20 ∨ ct = 21 ∨ ct = 22 ∨ ct = 23 ∨ ct = 26) :
    isCiphertextHeader ct = false ∧ isCiphertextHeader (cipherFlags epoch) = true := by
  refine ⟨?_, (cipherFlags_spec epoch).1⟩
  rcases h with h | h | h | h | h <;> subst h <;> decide

/-- **C25 (1.3, decode then encode).** Whatever is accepted re-encodes to the bytes read: an
unprotected record up to the choice of the two legacy versions, a protected one up to the choice of
sequence width and of an explicit length, as announced by the flag byte. -/
theorem parse13_exact (input rest : Bytes) (r : Rec13) (h : parse13 input = .ok rest r) :
    r.fragment.length = r.length ∧
    ((∃ ver, (ver = 0xFEFF ∨ ver = 0xFEFD) ∧ (r.ctype = 21 ∨ r.ctype = 22 ∨ r.ctype = 26) ∧
        r.epoch = 0 ∧ r.seq < 2 ^ 48 ∧ r.headerLen = 13 ∧
        input = r.ctype :: (beBytes 2 ver ++ beBytes 2 0 ++ beBytes 6 r.seq ++ beBytes 2 r.length
          ++ r.fragment ++ rest)) ∨
      (∃ flags : UInt8, isCiphertextHeader flags = true ∧ flagC flags = false ∧
        r.ctype = 23 ∧ r.epoch = epochBits flags ∧
        input = flags :: (beBytes (if flagS flags then 2 else 1) r.seq ++
          (if flagL flags then beBytes 2 r.length else []) ++ r.fragment ++ rest) ∧
        r.headerLen = 1 + (if flagS flags then 2 else 1) + (if flagL flags then 2 else 0) ∧
        r.seq < (if flagS flags then 2 ^ 16 else 2 ^ 8))) := by
  unfold parse13 at h
  split at h
  · cases h
  rename_i b tl
  split at h
  · rename_i hcip
    unfold parseCipher13 at h
    obtain ⟨i1, fl, h1, h⟩ := bind_ok h
    obtain ⟨b', hb', rfl⟩ := beNat_one_ok h1
    simp only [List.cons.injEq] at hb'
    obtain ⟨rfl, rfl⟩ := hb'
    have hbb : UInt8.ofNat b.toNat = b := by simp
    simp only [hbb] at h
    split at h
    · cases h
    rename_i hC
    obtain ⟨i2, s, h2, h⟩ := bind_ok h
    obtain ⟨bs, rfl, hbs, rfl⟩ := beNat_ok h2
    have hslt := ofBe_lt bs
    have hs16 : ofBe bs < (if flagS b = true then 2 ^ 16 else 2 ^ 8) := by
      rw [hbs] at hslt
      split at hslt <;> rename_i hS <;> simp only [hS, if_true, Bool.false_eq_true, if_false] <;>
        omega
    have qs := beBytes_ofBe bs
    rw [hbs] at qs
    split at h
    · rename_i hL
      obtain ⟨i3, l, h3, h⟩ := bind_ok h
      obtain ⟨bl, rfl, hbl, rfl⟩ := beNat_ok h3
      obtain ⟨i4, f, h4, hfin⟩ := bind_ok h
      obtain ⟨rfl, hfl⟩ := take_ok h4
      cases hfin
      have ql := beBytes_ofBe bl
      rw [hbl] at ql
      refine ⟨hfl, Or.inr ⟨b, hcip, by simpa using hC, rfl, rfl, ?_, ?_, hs16⟩⟩
      · simp [hL, qs, ql]
      · simp [hL]
    · rename_i hL
      obtain ⟨i4, f, h4, hfin⟩ := bind_ok h
      obtain ⟨rfl, hfl⟩ := take_ok h4
      cases hfin
      refine ⟨hfl, Or.inr ⟨b, hcip, by simpa using hC, rfl, rfl, ?_, ?_, hs16⟩⟩
      · simp [hL, qs]
      · simp [hL]
  · unfold parsePlain13 at h
    obtain ⟨i1, fl, h1, h⟩ := bind_ok h
    obtain ⟨b', hb', rfl⟩ := beNat_one_ok h1
    simp only [List.cons.injEq] at hb'
    obtain ⟨rfl, rfl⟩ := hb'
    have hbb : UInt8.ofNat b.toNat = b := by simp
    obtain ⟨i2, v, h2, h⟩ := bind_ok h
    obtain ⟨bv, rfl, hbv, rfl⟩ := beNat_ok h2
    simp only [hbb] at h
    split at h
    · cases h
    rename_i hct
    split at h
    · cases h
    rename_i hver
    obtain ⟨i3, e, h3, h⟩ := bind_ok h
    obtain ⟨be, rfl, hbe, rfl⟩ := beNat_ok h3
    split at h
    · cases h
    rename_i he0
    obtain ⟨i4, s, h4, h⟩ := bind_ok h
    obtain ⟨bs, rfl, hbs, rfl⟩ := beNat_ok h4
    obtain ⟨i5, l, h5, h⟩ := bind_ok h
    obtain ⟨bl, rfl, hbl, rfl⟩ := beNat_ok h5
    obtain ⟨i6, f, h6, hfin⟩ := bind_ok h
    obtain ⟨rfl, hfl⟩ := take_ok h6
    cases hfin
    have hslt := ofBe_lt bs
    rw [hbs] at hslt
    have he0 : ofBe be = 0 := by simpa using he0
    have q1 := beBytes_ofBe bv; have q2 := beBytes_ofBe be
    have q3 := beBytes_ofBe bs; have q4 := beBytes_ofBe bl
    rw [hbv] at q1; rw [hbe, he0] at q2; rw [hbs] at q3; rw [hbl] at q4
    refine ⟨hfl, Or.inl ⟨ofBe bv, ?_, ?_, he0, by simpa using hslt, rfl, ?_⟩⟩
    · simp only [verDtls10, verDtls12] at hver; omega
    · simp only [ctAlert, ctHandshake, ctAck, ne_eq, not_and, Classical.not_not] at hct
      simp only
      by_cases h21 : b = 21
      · exact Or.inl h21
      by_cases h22 : b = 22
      · exact Or.inr (Or.inl h22)
      · exact Or.inr (Or.inr (hct h21 h22))
    · simp [q1, q2, q3, q4]

example : parse13 [0x2E, 0x12, 0x34, 0, 2, 9, 8, 7] =
    .ok [7] { ctype := 23, epoch := 2, seq := 0x1234, length := 2, headerLen := 5,
              fragment := [9, 8] } := by decide
example : parse13 [0x23, 0x12, 9, 8, 7] =
    .ok [] { ctype := 23, epoch := 3, seq := 0x12, length := 3, headerLen := 2,
             fragment := [9, 8, 7] } := by decide

/-! ## C27: handshake headers -/

def WFHs (h : HsHeader) : Prop :=
  h.length < 2 ^ 24 ∧ h.messageSeq < 2 ^ 16 ∧ h.fragOff < 2 ^ 24 ∧ h.fragLen < 2 ^ 24

instance (h : HsHeader) : Decidable (WFHs h) := by unfold WFHs; infer_instance

/-- **C27 (encode then decode).** -/
theorem handshake_roundtrip (h : HsHeader) (body rest : Bytes) (hw : WFHs h)
    (hb : body.length = h.fragLen) :
    parseHsFragment (serializeHs h body ++ rest) = .ok rest { header := h, body := body, handled := false } := by
  obtain ⟨h1, h2, h3, h4⟩ := hw
  have : UInt8.ofNat h.msgType.toNat = h.msgType := by simp
  unfold parseHsFragment parseHsHeader serializeHs serializeHsHeader
  simp only [List.cons_append, List.append_assoc, beNat_one_cons, PRes.bind_ok',
    beNat_beBytes 3 h.length _ (by omega : h.length < 256 ^ 3),
    beNat_beBytes 2 h.messageSeq _ (by omega : h.messageSeq < 256 ^ 2),
    beNat_beBytes 3 h.fragOff _ (by omega : h.fragOff < 256 ^ 3),
    beNat_beBytes 3 h.fragLen _ (by omega : h.fragLen < 256 ^ 3), this, take_append _ _ _ hb]

/-- **C27 (decode then encode).** -/
theorem handshake_exact (input rest : Bytes) (x : Hs) (h : parseHsFragment input = .ok rest x) :
    WFHs x.header ∧ x.body.length = x.header.fragLen ∧
      input = serializeHs x.header x.body ++ rest := by
  unfold parseHsFragment parseHsHeader at h
  obtain ⟨i6, hd, h, h'⟩ := bind_ok h
  obtain ⟨i1, ct, h1, h⟩ := bind_ok h
  obtain ⟨b, rfl, rfl⟩ := beNat_one_ok h1
  obtain ⟨i2, v, h2, h⟩ := bind_ok h
  obtain ⟨bv, rfl, hbv, rfl⟩ := beNat_ok h2
  obtain ⟨i3, e, h3, h⟩ := bind_ok h
  obtain ⟨be, rfl, hbe, rfl⟩ := beNat_ok h3
  obtain ⟨i4, s, h4, h⟩ := bind_ok h
  obtain ⟨bs, rfl, hbs, rfl⟩ := beNat_ok h4
  obtain ⟨i5, l, h5, hhd⟩ := bind_ok h
  obtain ⟨bl, rfl, hbl, rfl⟩ := beNat_ok h5
  cases hhd
  obtain ⟨i7, f, h6, hfin⟩ := bind_ok h'
  obtain ⟨rfl, hfl⟩ := take_ok h6
  cases hfin
  have l0 := ofBe_lt bv; have l1 := ofBe_lt be; have l2 := ofBe_lt bs; have l3 := ofBe_lt bl
  rw [hbv] at l0; rw [hbe] at l1; rw [hbs] at l2; rw [hbl] at l3
  have q1 := beBytes_ofBe bv; have q2 := beBytes_ofBe be
  have q3 := beBytes_ofBe bs; have q4 := beBytes_ofBe bl
  rw [hbv] at q1; rw [hbe] at q2; rw [hbs] at q3; rw [hbl] at q4
  refine ⟨⟨by simpa using l0, by simpa using l1, by simpa using l2, by simpa using l3⟩, hfl, ?_⟩
  simp [serializeHs, serializeHsHeader, q1, q2, q3, q4]

/-- **C27 (several messages in one record).** Up to eight fragments written into one record are read
back, in order, each once. -/
theorem handshakes_roundtrip (n : Nat) (hs : List (HsHeader × Bytes)) (hn : hs.length ≤ n)
    (hw : ∀ p ∈ hs, WFHs p.1 ∧ p.2.length = p.1.fragLen) :
    parseHandshakes n ((hs.map (fun p => serializeHs p.1 p.2)).flatten) =
      hs.map (fun p => { header := p.1, body := p.2, handled := false }) := by
  induction n generalizing hs with
  | zero =>
    have : hs = [] := List.length_eq_zero_iff.1 (by omega)
    subst this; simp [parseHandshakes]
  | succ n ih =>
    cases hs with
    | nil => simp [parseHandshakes]
    | cons p hs =>
      simp only [List.map_cons, List.flatten_cons, parseHandshakes]
      have hp := hw p (by simp)
      rw [handshake_roundtrip _ _ _ hp.1 hp.2]
      have hne : (serializeHs p.1 p.2 ++ (hs.map (fun p => serializeHs p.1 p.2)).flatten).isEmpty = false := by
        simp [serializeHs, serializeHsHeader]
      simp only [hne]
      rw [ih hs (by simpa using hn) (fun q hq => hw q (by simp [hq]))]
      simp

example : WFHs { msgType := 1, length := 70000, messageSeq := 3, fragOff := 1000, fragLen := 2 } := by
  decide

/-! ## C28: content type and padding of a protected 1.3 record -/

/-- **C28.** The type and content come back exactly, whatever number of zero bytes pads them, for
every non-zero content type - also when the content itself ends in zeros. -/
theorem inner_roundtrip (ct : UInt8) (content : Bytes) (pad : Nat) (h : ct ≠ 0) :
    recoverInner (innerPlaintext ct content ++ List.replicate pad 0) = some (ct, content) := by
  unfold recoverInner innerPlaintext
  have : (content ++ [ct] ++ List.replicate pad 0).reverse =
      List.replicate pad 0 ++ (ct :: content.reverse) := by simp
  rw [this]
  have hd : ∀ n, (List.replicate n (0 : UInt8) ++ (ct :: content.reverse)).dropWhile (· == 0) =
      ct :: content.reverse := by
    intro n
    induction n with
    | zero => simp [h]
    | succ n ih => simpa [List.replicate_succ] using ih
  rw [hd]; simp

/-- Only such plaintexts are accepted, so the decomposition is unique. -/
theorem inner_exact (d : Bytes) (ct : UInt8) (content : Bytes) (h : recoverInner d = some (ct, content)) :
    ct ≠ 0 ∧ ∃ pad, d = content ++ [ct] ++ List.replicate pad 0 := by
  unfold recoverInner at h
  generalize hr : d.reverse = r at h
  have hd : d = r.reverse := by rw [← hr]; simp
  subst hd
  clear hr
  induction r with
  | nil => simp at h
  | cons b r ih =>
    by_cases hb : b = 0
    · subst hb
      simp only [List.dropWhile_cons, beq_self_eq_true, if_true] at h
      obtain ⟨h1, pad, h2⟩ := ih h
      refine ⟨h1, pad + 1, ?_⟩
      rw [List.reverse_cons, h2, List.replicate_succ', List.append_assoc (_ ++ _)]
    · have : (b == 0) = false := by simpa using hb
      simp only [List.dropWhile_cons, this] at h
      simp only [Bool.false_eq_true, if_false, Option.some.injEq, Prod.mk.injEq] at h
      obtain ⟨rfl, rfl⟩ := h
      exact ⟨hb, 0, by simp⟩

theorem dropWhile_nil_of_all {p : UInt8 → Bool} {l : Bytes} (h : ∀ b ∈ l, p b = true) :
    l.dropWhile p = [] := by
  induction l with
  | nil => rfl
  | cons b l ih => simp [h b (by simp), ih (fun c hc => h c (by simp [hc]))]

theorem dropWhile_nil_all {p : UInt8 → Bool} {l : Bytes} (h : l.dropWhile p = []) :
    ∀ b ∈ l, p b = true := by
  induction l with
  | nil => simp
  | cons b l ih =>
    simp only [List.dropWhile_cons] at h
    split at h
    · rename_i hb
      intro c hc
      rcases List.mem_cons.1 hc with rfl | hc
      · exact hb
      · exact ih h c hc
    · simp at h

theorem inner_none_iff (d : Bytes) : recoverInner d = none ↔ ∀ b ∈ d, b = 0 := by
  unfold recoverInner
  constructor
  · intro h
    split at h
    · rename_i heq
      intro b hb
      have := dropWhile_nil_all heq b (by simpa using hb)
      simpa using this
    · cases h
  · intro h
    have : d.reverse.dropWhile (· == 0) = [] := by
      apply dropWhile_nil_of_all
      intro b hb; simpa using h b (by simpa using hb)
    rw [this]

example : recoverInner [7, 0, 0, 22, 0, 0, 0] = some (22, [7, 0, 0]) := by decide
example : recoverInner [0, 0, 0] = none := by decide

/-! ## C26: splitting a datagram into records -/

/-- **C26 (1.2).** A datagram that is a concatenation of records splits into exactly these. -/
theorem split12_concat (rs : List Rec12) (h : ∀ r ∈ rs, WF12 r) :
    split12 (rs.map serialize12).flatten = (rs.map serialize12, .done) := by
  unfold split12
  suffices H : ∀ fuel, (rs.map serialize12).flatten.length < fuel →
      split12Aux fuel (rs.map serialize12).flatten = (rs.map serialize12, .done) from
    H _ (by omega)
  induction rs with
  | nil => intro fuel hf; cases fuel <;> simp [split12Aux]
  | cons r rs ih =>
    intro fuel hf
    obtain ⟨fuel, rfl⟩ : ∃ k, fuel = k + 1 := ⟨fuel - 1, by omega⟩
    obtain ⟨_, _, _, hl, hl2, _⟩ := h r (by simp)
    have hlen : (serialize12 r).length = 13 + r.length := by
      simp [serialize12, hl]; omega
    simp only [List.map_cons, List.flatten_cons, split12Aux]
    have hlf : ofBe ((((serialize12 r ++ (rs.map serialize12).flatten)).drop 11).take 2) = r.length := by
      have : serialize12 r ++ (rs.map serialize12).flatten =
          ([r.ctype] ++ beBytes 2 r.version ++ beBytes 2 r.epoch ++ beBytes 6 r.seq) ++
            (beBytes 2 r.length ++ (r.fragment ++ (rs.map serialize12).flatten)) := by
        simp [serialize12]
      rw [this, List.drop_left' (by simp), List.take_left' (by simp), ofBe_beBytes_of_lt (by omega)]
    rw [hlf]
    have hne : (serialize12 r ++ (rs.map serialize12).flatten).isEmpty = false := by
      simp [serialize12]
    rw [hne]
    simp only [Bool.false_eq_true, if_false]
    rw [if_neg (by rw [List.length_append, hlen]; omega),
      if_neg (by rw [List.length_append, hlen]; omega)]
    rw [← hlen, List.drop_left' rfl, List.take_left' rfl]
    rw [ih (fun q hq => h q (by simp [hq])) fuel (by
      simp only [List.map_cons, List.flatten_cons, List.length_append] at hf; omega)]

/-- **C26 (1.2, any datagram).** The slices handed on are, in order and without gap or overlap, a
prefix of the datagram; nothing is left over when the loop ends normally. -/
theorem split12_partition (packet : Bytes) :
    ∃ rest, packet = (split12 packet).1.flatten ++ rest ∧
      ((split12 packet).2 = .done → rest = []) ∧
      ∀ r ∈ (split12 packet).1, 13 ≤ r.length ∧ r.length = 13 + ofBe ((r.drop 11).take 2) := by
  unfold split12
  suffices H : ∀ fuel (p : Bytes), p.length < fuel → ∃ rest, p = (split12Aux fuel p).1.flatten ++ rest ∧
      ((split12Aux fuel p).2 = .done → rest = []) ∧
      ∀ r ∈ (split12Aux fuel p).1, 13 ≤ r.length ∧ r.length = 13 + ofBe ((r.drop 11).take 2) from
    H _ packet (by omega)
  intro fuel
  induction fuel with
  | zero => intro p hp; omega
  | succ fuel ih =>
    intro p hp
    simp only [split12Aux]
    split
    · rename_i he
      exact ⟨[], by simpa using he, by simp, by simp⟩
    split
    · exact ⟨p, by simp, by simp, by simp⟩
    split
    · exact ⟨p, by simp, by simp, by simp⟩
    · rename_i h1 h2 h3
      obtain ⟨rest, e1, e2, e3⟩ := ih (p.drop (13 + ofBe ((p.drop 11).take 2))) (by
        simp only [List.length_drop]; omega)
      refine ⟨rest, ?_, e2, ?_⟩
      · simp only [List.flatten_cons, List.append_assoc]
        rw [← e1, List.take_append_drop]
      · intro r hr
        simp only [List.mem_cons] at hr
        rcases hr with rfl | hr
        · refine ⟨by simp; omega, ?_⟩
          rw [List.length_take, Nat.min_eq_left (by omega), List.drop_take, List.take_take,
            Nat.min_eq_left (by omega)]
        · exact e3 r hr

/-- First byte of the RFC 9147 unified header without connection id: `001` `0` `S` `L` `E` `E`. -/
def unifiedByte (s l : Bool) (epoch : Nat) : UInt8 :=
  UInt8.ofNat (32 + (if s then 8 else 0) + (if l then 4 else 0) + epoch % 4)

/-- A record as it appears in a 1.3 datagram written by a conforming peer: unprotected, or protected
with a one- or two-byte sequence number and a length. -/
inductive Out13 where
  | plain (ct : UInt8) (seq : Nat) (fragment : Bytes)
  | cipher (s : Bool) (epoch seq : Nat) (fragment : Bytes)
deriving DecidableEq

def Out13.bytes : Out13 → Bytes
  | .plain ct seq f => serializePlain13 ct 0 seq f.length f
  | .cipher s e seq f =>
    unifiedByte s true e :: (beBytes (if s then 2 else 1) seq ++ (beBytes 2 f.length ++ f))

/-- A protected record without a length field, which takes the rest of the datagram. -/
def lastBytes (s : Bool) (e seq : Nat) (f : Bytes) : Bytes :=
  unifiedByte s false e :: (beBytes (if s then 2 else 1) seq ++ f)

/-- What this implementation sends is the form with the two-byte sequence number. -/
theorem sent_form (e seq : Nat) (f : Bytes) :
    serializeCipher13 e seq f.length f = (Out13.cipher true e seq f).bytes := by
  have h : ∀ n : Fin 4, cipherFlags n.val = unifiedByte true true n.val := by decide +kernel
  have h1 : cipherFlags e = unifiedByte true true e := by
    rw [cipherFlags_mod, h ⟨e % 4, by omega⟩]
    simp [unifiedByte]
  simp [serializeCipher13, Out13.bytes, h1]

def Out13.WF : Out13 → Prop
  | .plain ct _ f => (ct = 21 ∨ ct = 22 ∨ ct = 26) ∧ f.length < 2 ^ 16
  | .cipher _ _ _ f => f.length < 2 ^ 16

instance (o : Out13) : Decidable o.WF := by cases o <;> unfold Out13.WF <;> infer_instance

theorem unifiedByte_spec (s l : Bool) (e : Nat) :
    isCiphertextHeader (unifiedByte s l e) = true ∧ flagC (unifiedByte s l e) = false ∧
    flagS (unifiedByte s l e) = s ∧ flagL (unifiedByte s l e) = l := by
  have h : ∀ (s l : Bool) (n : Fin 4), isCiphertextHeader (unifiedByte s l n.val) = true ∧
      flagC (unifiedByte s l n.val) = false ∧ flagS (unifiedByte s l n.val) = s ∧
      flagL (unifiedByte s l n.val) = l := by decide +kernel
  have := h s l ⟨e % 4, by omega⟩
  have he : unifiedByte s l (e % 4) = unifiedByte s l e := by simp [unifiedByte]
  simp only [he] at this
  exact this

theorem recordEnd13_of_out (o : Out13) (tail : Bytes) (h : o.WF) :
    recordEnd13 (o.bytes ++ tail) = some (some o.bytes.length) := by
  cases o with
  | plain ct seq f =>
    obtain ⟨hct, hl⟩ := h
    have hc : isCiphertextHeader ct = false := by rcases hct with h | h | h <;> subst h <;> decide
    have hlf : ofBe (((Out13.bytes (.plain ct seq f) ++ tail).drop 11).take 2) = f.length := by
      have : Out13.bytes (.plain ct seq f) ++ tail =
          ([ct] ++ beBytes 2 verDtls12 ++ beBytes 2 0 ++ beBytes 6 seq) ++
            (beBytes 2 f.length ++ (f ++ tail)) := by
        simp [Out13.bytes, serializePlain13]
      rw [this, List.drop_left' (by simp), List.take_left' (by simp), ofBe_beBytes_of_lt (by omega)]
    have hlen : (Out13.bytes (.plain ct seq f)).length = 13 + f.length := by
      simp [Out13.bytes, serializePlain13]; omega
    have hcons : ∃ tl, Out13.bytes (.plain ct seq f) ++ tail = ct :: tl := ⟨_, rfl⟩
    obtain ⟨tl, htl⟩ := hcons
    rw [htl] at hlf ⊢
    have hlt : (ct :: tl).length = 13 + f.length + tail.length := by
      rw [← htl, List.length_append, hlen]
    simp only [recordEnd13, hc]
    rw [hlf, hlen]
    simp only [Bool.false_eq_true, if_false]
    rw [if_neg (by omega)]
  | cipher s e seq f =>
    have hl : f.length < 2 ^ 16 := h
    obtain ⟨h1, h2, h3, h4⟩ := unifiedByte_spec s true e
    have hsl : (if s = true then 2 else 1) = 1 ∨ (if s = true then 2 else 1) = 2 := by
      cases s <;> simp
    generalize hk : (if s = true then 2 else 1) = k at hsl
    have hlf : ofBe (((Out13.bytes (.cipher s e seq f) ++ tail).drop (1 + k)).take 2) = f.length := by
      have : Out13.bytes (.cipher s e seq f) ++ tail =
          ([unifiedByte s true e] ++ beBytes k seq) ++ (beBytes 2 f.length ++ (f ++ tail)) := by
        simp [Out13.bytes, hk]
      rw [this, List.drop_left' (by simp; omega), List.take_left' (by simp), ofBe_beBytes_of_lt (by omega)]
    have hlen : (Out13.bytes (.cipher s e seq f)).length = 1 + k + 2 + f.length := by
      simp [Out13.bytes, hk]; omega
    have hcons : ∃ tl, Out13.bytes (.cipher s e seq f) ++ tail = unifiedByte s true e :: tl := ⟨_, rfl⟩
    obtain ⟨tl, htl⟩ := hcons
    rw [htl] at hlf ⊢
    have hlt : (unifiedByte s true e :: tl).length = 1 + k + 2 + f.length + tail.length := by
      rw [← htl, List.length_append, hlen]
    simp only [recordEnd13, h1, h2, h3, h4, if_true, hk]
    rw [hlf, hlen]
    simp only [Bool.false_eq_true, if_false]
    rw [if_neg (by omega), if_neg (by omega)]

theorem recordEnd13_last (s : Bool) (e seq : Nat) (f : Bytes) :
    recordEnd13 (lastBytes s e seq f) = some (some (lastBytes s e seq f).length) := by
  obtain ⟨h1, h2, h3, h4⟩ := unifiedByte_spec s false e
  have hlen : (lastBytes s e seq f).length = 1 + (if s = true then 2 else 1) + f.length := by
    simp [lastBytes]; omega
  have hs : (if s = true then 2 else 1) ≥ 1 := by cases s <;> simp
  have hcons : ∃ tl, lastBytes s e seq f = unifiedByte s false e :: tl := ⟨_, rfl⟩
  obtain ⟨tl, htl⟩ := hcons
  rw [htl] at hlen ⊢
  simp only [recordEnd13, h1, h2, h3, h4, if_true]
  simp only [Bool.false_eq_true, if_false]
  rw [if_neg (by omega), if_neg (by omega)]

theorem Out13.bytes_ne (r : Out13) (t : Bytes) : (r.bytes ++ t).isEmpty = false := by
  cases r <;> simp [Out13.bytes, serializePlain13]

/-- **C26 (1.3).** Any mix of unprotected and protected records in one datagram, possibly followed by
one protected record without a length field, splits into exactly these. -/
theorem split13_concat (rs : List Out13) (h : ∀ r ∈ rs, r.WF)
    (last : Option (Bool × Nat × Nat × Bytes)) :
    let lastL := last.toList.map fun (s, e, seq, f) => lastBytes s e seq f
    split13 (rs.map Out13.bytes ++ lastL).flatten = (rs.map Out13.bytes ++ lastL, .done) := by
  intro lastL
  unfold split13
  suffices H : ∀ fuel, (rs.map Out13.bytes ++ lastL).flatten.length < fuel →
      split13Aux fuel (rs.map Out13.bytes ++ lastL).flatten = (rs.map Out13.bytes ++ lastL, .done) from
    H _ (by omega)
  induction rs with
  | nil =>
    intro fuel hf
    cases fuel with
    | zero => omega
    | succ fuel =>
      cases last with
      | none => simp [lastL, split13Aux]
      | some q =>
        obtain ⟨s, e, seq, f⟩ := q
        have hne : (lastBytes s e seq f).isEmpty = false := by simp [lastBytes]
        simp only [lastL, Option.toList_some, List.map_cons, List.map_nil, List.nil_append,
          List.flatten_cons, List.flatten_nil, List.append_nil, split13Aux, recordEnd13_last, hne]
        simp only [Bool.false_eq_true, if_false, Nat.lt_irrefl]
        cases fuel <;> simp [split13Aux]
  | cons r rs ih =>
    intro fuel hf
    obtain ⟨fuel, rfl⟩ : ∃ k, fuel = k + 1 := ⟨fuel - 1, by omega⟩
    have hw := h r (by simp)
    have hpos : 0 < r.bytes.length := by
      cases r <;> simp [Out13.bytes, serializePlain13]
    simp only [List.map_cons, List.cons_append, List.flatten_cons, split13Aux]
    rw [Out13.bytes_ne, recordEnd13_of_out _ _ hw]
    simp only [Bool.false_eq_true, if_false]
    rw [if_neg (by simp), List.drop_left' rfl, List.take_left' rfl,
      ih (fun q hq => h q (by simp [hq])) fuel (by
        simp only [List.map_cons, List.cons_append, List.flatten_cons, List.length_append] at hf ⊢
        omega)]

theorem recordEnd13_pos (p : Bytes) (n : Nat) (h : recordEnd13 p = some (some n)) : 1 ≤ n := by
  cases p with
  | nil => simp [recordEnd13] at h
  | cons b tl =>
    simp only [recordEnd13] at h
    generalize (if flagS b = true then 2 else 1) = sl at h
    generalize (if flagL b = true then 2 else 0) = ll at h
    repeat' split at h
    all_goals simp only [Option.some.injEq, reduceCtorEq] at h
    · omega
    · simp only [List.length_cons] at h; omega
    · omega

/-- **C26 (1.3, any datagram).** -/
theorem split13_partition (packet : Bytes) :
    ∃ rest, packet = (split13 packet).1.flatten ++ rest ∧
      ((split13 packet).2 = .done → rest = []) ∧ ∀ r ∈ (split13 packet).1, r ≠ [] := by
  unfold split13
  suffices H : ∀ fuel (p : Bytes), p.length < fuel → ∃ rest, p = (split13Aux fuel p).1.flatten ++ rest ∧
      ((split13Aux fuel p).2 = .done → rest = []) ∧ ∀ r ∈ (split13Aux fuel p).1, r ≠ [] from
    H _ packet (by omega)
  intro fuel
  induction fuel with
  | zero => intro p hp; omega
  | succ fuel ih =>
    intro p hp
    simp only [split13Aux]
    split
    · rename_i he
      exact ⟨[], by simpa using he, by simp, by simp⟩
    split
    · exact ⟨p, by simp, by simp, by simp⟩
    · exact ⟨p, by simp, by simp, by simp⟩
    · rename_i he _ n hn
      have hpos := recordEnd13_pos _ _ hn
      have hp0 : p.length ≠ 0 := by
        intro h0; apply he; simpa using List.length_eq_zero_iff.1 h0
      split
      · exact ⟨p, by simp, by simp, by simp⟩
      · rename_i hle
        obtain ⟨rest, e1, e2, e3⟩ := ih (p.drop n) (by simp only [List.length_drop]; omega)
        refine ⟨rest, ?_, e2, ?_⟩
        · simp only [List.flatten_cons, List.append_assoc]
          rw [← e1, List.take_append_drop]
        · intro r hr
          simp only [List.mem_cons] at hr
          rcases hr with rfl | hr
          · intro h0
            have := congrArg List.length h0
            simp only [List.length_take, List.length_nil] at this
            omega
          · exact e3 r hr

example : split13 ((Out13.plain 22 1 [1, 2, 3]).bytes ++ (Out13.cipher false 2 0 [9, 9]).bytes
      ++ (Out13.cipher true 3 0 [7]).bytes ++ lastBytes true 3 1 [8, 8]) =
    ([(Out13.plain 22 1 [1, 2, 3]).bytes, (Out13.cipher false 2 0 [9, 9]).bytes,
      (Out13.cipher true 3 0 [7]).bytes, lastBytes true 3 1 [8, 8]], .done) := by
  decide +kernel
example : (split13 ([0x30, 1, 2] : Bytes)).2 = .discardRest := by decide
example : (split12 ([22, 254, 253] : Bytes)).2 = .incomplete := by decide

end Verif.Props.Wire

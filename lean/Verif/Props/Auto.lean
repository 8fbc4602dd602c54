import Verif.Model.Auto
import Verif.Lemmas.Bytes
/-!
# C45 (client side), C46, C47
-/
namespace Verif.Props.Auto
open Verif Verif.Auto

/-! ## C45: what a server answer decides -/

/-- A ServerHello as laid out by RFC 5246/8446, field by field. -/
structure SH where
  version : Bytes
  random : Bytes
  sid : Bytes
  suite : Bytes
  compression : UInt8
  exts : Option (List (Nat × Bytes))

/-- One extension on the wire. -/
def extBytes (e : Nat × Bytes) : Bytes := beBytes 2 e.1 ++ (beBytes 2 e.2.length ++ e.2)

def extsBytes (es : List (Nat × Bytes)) : Bytes := (es.map extBytes).flatten

/-- The part of the body before the extensions. -/
def SH.fixed (s : SH) : Bytes :=
  s.version ++ (s.random ++ (UInt8.ofNat s.sid.length :: (s.sid ++ (s.suite ++ [s.compression]))))

def SH.body (s : SH) : Bytes :=
  s.fixed ++ match s.exts with
    | none => []
    | some es => beBytes 2 (extsBytes es).length ++ extsBytes es

structure SH.WF (s : SH) : Prop where
  version : s.version.length = 2
  random : s.random.length = 32
  sid : s.sid.length < 256
  suite : s.suite.length = 2
  extTypes : ∀ es, s.exts = some es → ∀ e ∈ es, e.1 < 65536 ∧ e.2.length < 65536
  extLen : ∀ es, s.exts = some es → (extsBytes es).length < 65536

/-- The version selected by the first supported_versions extension, if it selects one. -/
def selected : List (Nat × Bytes) → Option Nat
  | [] => none
  | (t, d) :: rest => if t = 43 then (if 2 ≤ d.length then some (ofBe (d.take 2)) else none)
    else selected rest

/-- Specification: DTLS 1.3 exactly when supported_versions selects 0xFEFC. -/
def SH.means13 (s : SH) : Prop :=
  match s.exts with
  | none => False
  | some es => selected es = some 0xFEFC

instance (s : SH) : Decidable s.means13 := by unfold SH.means13; cases s.exts <;> infer_instance

/-- A record carrying one handshake fragment: content type 22, ten further header bytes, and the
handshake header with arbitrary length, message_seq and fragment_offset fields; both the record and
the datagram may contain more. -/
def framed (hdr : Bytes) (msgType : UInt8) (hsMid : Bytes) (body tail1 tail2 : Bytes) : Bytes :=
  let hs := msgType :: (hsMid ++ (beBytes 3 body.length ++ (body ++ tail1)))
  (22 : UInt8) :: (hdr ++ (beBytes 2 hs.length ++ (hs ++ tail2)))

theorem slice_append (a b c : Bytes) (n : Nat) (h : b.length = n) :
    slice (a ++ (b ++ c)) a.length n = b := by
  unfold slice
  rw [List.drop_left' rfl, List.take_left' h]

theorem slice_at (l a b c : Bytes) (i n : Nat) (hl : l = a ++ (b ++ c)) (ha : a.length = i)
    (hb : b.length = n) : slice l i n = b := by
  subst hl; subst ha; exact slice_append a b c n hb

theorem walk_spec (es : List (Nat × Bytes)) :
    ∀ (pre tail : Bytes) (fuel : Nat),
      (∀ e ∈ es, e.1 < 65536 ∧ e.2.length < 65536) → es.length ≤ fuel →
      walkExts (pre ++ (extsBytes es ++ tail)) (pre.length + (extsBytes es).length) (fuel + 1) pre.length =
        if selected es = some 0xFEFC then .dtls13 else .dtls12 := by
  induction es with
  | nil =>
    intro pre tail fuel _ _
    simp only [walkExts, extsBytes, List.map_nil, List.flatten_nil, List.length_nil, selected]
    rw [if_neg (by omega)]; rfl
  | cons e es ih =>
    intro pre tail fuel hwf hfuel
    obtain ⟨t, d⟩ := e
    have hw := hwf (t, d) (by simp)
    simp only at hw
    have hlen : (extsBytes ((t, d) :: es)).length = 4 + d.length + (extsBytes es).length := by
      simp [extsBytes, extBytes]; omega
    have hl : pre ++ (extsBytes ((t, d) :: es) ++ tail) =
        pre ++ (beBytes 2 t ++ (beBytes 2 d.length ++ (d ++ (extsBytes es ++ tail)))) := by
      simp [extsBytes, extBytes]
    have h1 : slice (pre ++ (extsBytes ((t, d) :: es) ++ tail)) pre.length 2 = beBytes 2 t :=
      slice_at _ pre _ _ _ _ hl rfl (by simp)
    have h2 : slice (pre ++ (extsBytes ((t, d) :: es) ++ tail)) (pre.length + 2) 2 =
        beBytes 2 d.length :=
      slice_at _ (pre ++ beBytes 2 t) _ (d ++ (extsBytes es ++ tail)) _ _ (by rw [hl]; simp) (by simp) (by simp)
    simp only [walkExts]
    rw [if_pos (by rw [hlen]; omega), h1, h2, ofBe_beBytes_of_lt (by omega),
      ofBe_beBytes_of_lt (by omega)]
    by_cases ht : t = 43
    · subst ht
      simp only [if_true, selected]
      by_cases hd : 2 ≤ d.length
      · rw [if_pos (show d.length ≥ 2 from hd)]
        have h3 : slice (pre ++ (extsBytes ((43, d) :: es) ++ tail)) (pre.length + 4) 2 = d.take 2 :=
          slice_at _ (pre ++ (beBytes 2 43 ++ beBytes 2 d.length)) _
            (d.drop 2 ++ (extsBytes es ++ tail)) _ _
            (by rw [hl]; simp only [List.append_assoc]
                rw [← List.append_assoc (d.take 2), List.take_append_drop]) (by simp) (by simp; omega)
        rw [if_pos (by rw [hl]; simp; omega), h3]
        simp [hd]
      · rw [if_neg (show ¬ d.length ≥ 2 from hd)]
        simp [hd]
    · simp only [ht, if_false, selected]
      obtain ⟨f, rfl⟩ : ∃ f, fuel = f + 1 := ⟨fuel - 1, by simp at hfuel; omega⟩
      have := ih (pre ++ (beBytes 2 t ++ (beBytes 2 d.length ++ d))) tail f
        (fun e he => hwf e (by simp [he])) (by simp at hfuel; omega)
      rw [← this]
      have hp : (pre ++ (beBytes 2 t ++ (beBytes 2 d.length ++ d))).length = pre.length + 4 + d.length := by
        simp; omega
      rw [hp, hlen, hl]
      congr 1
      · simp
      · omega

theorem extsBytes_length_ge (es : List (Nat × Bytes)) : 4 * es.length ≤ (extsBytes es).length := by
  induction es with
  | nil => simp [extsBytes]
  | cons e es ih =>
    simp only [extsBytes, List.map_cons, List.flatten_cons, List.length_append, List.length_cons,
      extBytes, beBytes_length] at *
    omega

theorem serverHelloBody_spec (s : SH) (h : s.WF) :
    serverHelloBody s.body = if s.means13 then .dtls13 else .dtls12 := by
  have hfl : s.fixed.length = 38 + s.sid.length := by
    simp [SH.fixed, h.version, h.random, h.suite]; omega
  have hbl : s.fixed.length ≤ s.body.length := by simp [SH.body]
  have hsid : (s.body.getD 34 0).toNat = s.sid.length := by
    have : s.body = (s.version ++ s.random) ++ (UInt8.ofNat s.sid.length ::
        ((s.sid ++ (s.suite ++ [s.compression])) ++ match s.exts with
          | none => []
          | some es => beBytes 2 (extsBytes es).length ++ extsBytes es)) := by
      simp [SH.body, SH.fixed]
    rw [this, List.getD_eq_getElem?_getD, List.getElem?_append_right (by simp [h.version, h.random])]
    have hs := h.sid
    simp [h.version, h.random]
    omega
  unfold serverHelloBody
  rw [if_neg (by omega), hsid]
  have hpos : 34 + (1 + s.sid.length) + 2 + 1 = s.fixed.length := by omega
  simp only [hpos]
  cases hx : s.exts with
  | none =>
    have : s.body.length = s.fixed.length := by simp [SH.body, hx]
    rw [if_pos (by omega)]
    simp [SH.means13, hx]
  | some es =>
    have hb : s.body = s.fixed ++ (beBytes 2 (extsBytes es).length ++ extsBytes es) := by
      simp [SH.body, hx]
    have hlen : s.body.length = s.fixed.length + 2 + (extsBytes es).length := by rw [hb]; simp; omega
    have hsl : slice s.body s.fixed.length 2 = beBytes 2 (extsBytes es).length :=
      slice_at _ s.fixed _ (extsBytes es) _ _ hb rfl (by simp)
    rw [if_neg (by omega), hsl, ofBe_beBytes_of_lt (by have := h.extLen es hx; omega)]
    rw [if_neg (by omega)]
    have hge := extsBytes_length_ge es
    obtain ⟨f, hf⟩ : ∃ f, s.body.length = f + 1 := ⟨s.body.length - 1, by omega⟩
    have hw := walk_spec es (s.fixed ++ beBytes 2 (extsBytes es).length) [] f (h.extTypes es hx) (by omega)
    have hpl : (s.fixed ++ beBytes 2 (extsBytes es).length).length = s.fixed.length + 2 := by simp
    rw [hpl] at hw
    rw [hf]
    have hb' : s.body = s.fixed ++ beBytes 2 (extsBytes es).length ++ (extsBytes es ++ []) := by
      rw [hb]; simp
    rw [hb', hw]
    simp [SH.means13, hx]

theorem framed_opens (hdr : Bytes) (mt : UInt8) (hsMid body tail1 tail2 : Bytes)
    (h1 : hdr.length = 10) (h2 : hsMid.length = 8) (h3 : body.length + tail1.length < 65536 - 12) :
    13 ≤ (framed hdr mt hsMid body tail1 tail2).length ∧
    (framed hdr mt hsMid body tail1 tail2).getD 0 0 = 22 ∧
    get? (framed hdr mt hsMid body tail1 tail2) 13
        (ofBe (slice (framed hdr mt hsMid body tail1 tail2) 11 2)) =
      some (mt :: (hsMid ++ (beBytes 3 body.length ++ (body ++ tail1)))) := by
  have hlen : (mt :: (hsMid ++ (beBytes 3 body.length ++ (body ++ tail1)))).length =
      12 + body.length + tail1.length := by simp [h2]; omega
  refine ⟨by simp [framed, h1]; omega, by simp [framed], ?_⟩
  have hs : slice (framed hdr mt hsMid body tail1 tail2) 11 2 =
      beBytes 2 (mt :: (hsMid ++ (beBytes 3 body.length ++ (body ++ tail1)))).length :=
    slice_at _ (22 :: hdr) _ ((mt :: (hsMid ++ (beBytes 3 body.length ++ (body ++ tail1)))) ++ tail2) _ _
      (by simp [framed]) (by simp [h1]) (by simp)
  rw [hs, ofBe_beBytes_of_lt (by omega)]
  unfold get?
  have hfl : (framed hdr mt hsMid body tail1 tail2).length =
      13 + (mt :: (hsMid ++ (beBytes 3 body.length ++ (body ++ tail1)))).length + tail2.length := by
    simp [framed, h1]; omega
  rw [if_pos (by omega)]
  congr 1
  exact slice_at _ (22 :: (hdr ++ beBytes 2 (mt :: (hsMid ++ (beBytes 3 body.length ++ (body ++ tail1)))).length))
    _ tail2 _ _ (by simp [framed]) (by simp [h1]) rfl

/-- **C45 (ServerHello).** For every well-formed ServerHello, whatever the surrounding header fields,
the auto-sensing client settles on DTLS 1.3 exactly when supported_versions selects it and on DTLS 1.2
otherwise. -/
theorem server_hello_decides (s : SH) (h : s.WF) (hdr hsMid tail1 tail2 : Bytes)
    (h1 : hdr.length = 10) (h2 : hsMid.length = 8) (h3 : s.body.length + tail1.length < 65536 - 12) :
    serverHelloVersion (framed hdr 2 hsMid s.body tail1 tail2) =
      if s.means13 then .dtls13 else .dtls12 := by
  obtain ⟨f1, f2, f3⟩ := framed_opens hdr 2 hsMid s.body tail1 tail2 h1 h2 h3
  unfold serverHelloVersion
  rw [if_neg (by omega), f2, f3]
  have hl : ((2 : UInt8) :: (hsMid ++ (beBytes 3 s.body.length ++ (s.body ++ tail1)))).length =
      12 + s.body.length + tail1.length := by simp [h2]; omega
  have hs : slice ((2 : UInt8) :: (hsMid ++ (beBytes 3 s.body.length ++ (s.body ++ tail1)))) 9 3 =
      beBytes 3 s.body.length :=
    slice_at _ (2 :: hsMid) _ (s.body ++ tail1) _ _ (by simp) (by simp [h2]) (by simp)
  have hg : get? ((2 : UInt8) :: (hsMid ++ (beBytes 3 s.body.length ++ (s.body ++ tail1)))) 12
      s.body.length = some s.body := by
    unfold get?
    rw [if_pos (by omega)]
    congr 1
    exact slice_at _ (2 :: (hsMid ++ beBytes 3 s.body.length)) _ tail1 _ _ (by simp) (by simp [h2]) rfl
  simp only [ne_eq, not_true, if_false]
  rw [if_neg (by omega)]
  simp only [List.getD_cons_zero]
  rw [if_neg (by decide), if_neg (by decide), hs, ofBe_beBytes_of_lt (by omega), hg]
  exact serverHelloBody_spec s h

/-- **C45 (HelloVerifyRequest).** -/
theorem hello_verify_decides (hdr hsMid body tail1 tail2 : Bytes)
    (h1 : hdr.length = 10) (h2 : hsMid.length = 8) (h3 : body.length + tail1.length < 65536 - 12) :
    serverHelloVersion (framed hdr 3 hsMid body tail1 tail2) = .dtls12 := by
  obtain ⟨f1, f2, f3⟩ := framed_opens hdr 3 hsMid body tail1 tail2 h1 h2 h3
  unfold serverHelloVersion
  rw [if_neg (by omega), f2, f3]
  have hl : ((3 : UInt8) :: (hsMid ++ (beBytes 3 body.length ++ (body ++ tail1)))).length =
      12 + body.length + tail1.length := by simp [h2]; omega
  simp only [ne_eq, not_true, if_false]
  rw [if_neg (by omega)]
  simp

/-- **C45 (other datagrams).** A datagram decides anything only if it starts with a handshake record
whose first message is a HelloVerifyRequest or a ServerHello. -/
theorem others_decide_nothing (p : Bytes) (h : serverHelloVersion p ≠ .unknown) :
    ∃ tl, p = 22 :: tl ∧ 25 ≤ p.length ∧ (p[13]? = some 2 ∨ p[13]? = some 3) := by
  unfold serverHelloVersion at h
  split at h
  · exact absurd rfl h
  split at h
  · exact absurd rfl h
  rename_i hl h0
  cases p with
  | nil => simp at hl
  | cons b tl =>
    simp only [List.getD_cons_zero, ne_eq, Decidable.not_not] at h0
    subst h0
    refine ⟨tl, rfl, ?_⟩
    split at h
    · exact absurd rfl h
    rename_i rb hrb
    unfold get? at hrb
    split at hrb
    · rename_i hle
      simp only [Option.some.injEq] at hrb
      split at h
      · exact absurd rfl h
      rename_i hrl
      have hrlen : rb.length ≤ (22 :: tl).length - 13 := by
        rw [← hrb]; simp [slice]; omega
      refine ⟨by omega, ?_⟩
      have hget : rb[0]? = ((22 : UInt8) :: tl)[13]? := by
        have hpos : 0 < ofBe (slice (22 :: tl) 11 2) := by
          rcases Nat.eq_zero_or_pos (ofBe (slice (22 :: tl) 11 2)) with h0 | h0
          · rw [h0] at hrb; rw [← hrb] at hrl; simp [slice] at hrl
          · exact h0
        rw [← hrb]
        simp only [slice] at hpos ⊢
        rw [List.getElem?_take_of_lt hpos, List.getElem?_drop]
      rw [← hget]
      cases rb with
      | nil => simp at hrl
      | cons m rt =>
        simp only [List.getD_cons_zero, List.getElem?_cons_zero, Option.some.injEq] at h ⊢
        split at h
        · right; assumption
        split at h
        · exact absurd rfl h
        · rename_i h2; left; simpa using h2
    · simp at hrb

def sh13 : SH := { version := [0xFE, 0xFD], random := List.replicate 32 7, sid := [1, 2], suite := [0x13, 1],
                   compression := 0, exts := some [(51, [0, 29]), (43, [0xFE, 0xFC])] }
def sh12 : SH := { sh13 with exts := some [(23, []), (0xFF01, [0])] }

example : sh13.WF ∧ sh12.WF := by
  refine ⟨⟨by decide, by decide, by decide, by decide, ?_, ?_⟩, ⟨by decide, by decide, by decide, by decide, ?_, ?_⟩⟩ <;>
    intro es he <;> cases he <;> decide
example : sh13.means13 ∧ ¬ sh12.means13 := by decide
example : serverHelloVersion (framed (List.replicate 10 0) 2 (List.replicate 8 0) sh13.body [] []) = .dtls13 := by
  decide +kernel
example : serverHelloVersion [22, 1, 2] = .unknown := by decide

/-- **C22/C45, violated.** A ServerHello whose last four extension bytes announce a supported_versions
extension with a body that is not there makes the auto-sensing client index out of range and panic. -/
def panicBody : Bytes :=
  [0xFE, 0xFD] ++ List.replicate 32 0 ++ [0] ++ [0x13, 1] ++ [0] ++ [0, 4] ++ [0, 43, 0, 2]

theorem server_hello_peek_can_panic :
    serverHelloVersion (framed (List.replicate 10 0) 2 (List.replicate 8 0) panicBody [] []) = .panic := by
  decide +kernel

/-! ## C46: hybrid ClientHello schedule -/

/-- Seconds to wait after `k` retransmissions: 1, 2, 4, 8, 16, 32, 32, ... -/
def waitSecs (k : Nat) : Nat := [1, 2, 4, 8, 16].getD k 32

inductive Ev where
  | quiet | resend | giveUp
deriving DecidableEq, Repr

/-- Ideal schedule after `k` retransmissions with the next one due at `deadline`. -/
def ideal (retries : Nat) : Nat → Nat → List Nat → List Ev
  | _, _, [] => []
  | k, deadline, now :: rest =>
    if now < deadline then .quiet :: ideal retries k deadline rest
    else if k = retries then .giveUp :: ideal retries k deadline rest
    else .resend :: ideal retries (k + 1) (now + 1000000000 * waitSecs (k + 1)) rest

/-- What is observed at one `handle_timeout` followed by draining `poll_output` with a large buffer:
an error, the ClientHello, or nothing. -/
def observe (p : Pending) (retries now : Nat) : Pending × Ev :=
  let (p1, ok) := p.handleTimeout retries now
  if ok then
    match p1.pollOutput p1.wire.length with
    | (p2, .packet b) => (p2, if b = p.wire then .resend else .giveUp)
    | (p2, _) => (p2, .quiet)
  else (p1, .giveUp)

def observeAll (retries : Nat) : Pending → List Nat → List Ev
  | _, [] => []
  | p, now :: rest => (observe p retries now).2 :: observeAll retries (observe p retries now).1 rest

theorem observe_all_spec (retries : Nat) (calls : List Nat) :
    ∀ (p : Pending) (k deadline : Nat), p.retransmitAt = some deadline → p.retransmitCount = k →
      k ≤ retries → p.needsSend = false →
      observeAll retries p calls = ideal retries k deadline calls := by
  induction calls with
  | nil => intros; rfl
  | cons now rest ih =>
    intro p k deadline h1 h2 h3 h4
    simp only [observeAll, ideal]
    by_cases hn : now < deadline
    · have ho : observe p retries now = ({ p with lastNow := now }, .quiet) := by
        have : ¬ deadline ≤ now := by omega
        simp [observe, Pending.handleTimeout, h1, this, Pending.pollOutput, h4]
      rw [ho, if_pos hn]
      simp only
      congr 1
      exact ih _ k deadline h1 h2 h3 h4
    · have hge : deadline ≤ now := by omega
      by_cases hk : k = retries
      · have ho : observe p retries now = ({ p with lastNow := now }, .giveUp) := by
          have : retries ≤ k := by omega
          simp [observe, Pending.handleTimeout, h1, hge, h2, this]
        rw [ho, if_neg hn, if_pos hk]
        simp only
        congr 1
        exact ih _ k deadline h1 h2 h3 h4
      · have hlt : ¬ retries ≤ k := by omega
        have ho : observe p retries now =
            ({ p with lastNow := now, retransmitCount := k + 1, needsSend := false,
                      retransmitAt := some (now + second * 2 ^ (min (k + 1) 5)) }, .resend) := by
          simp [observe, Pending.handleTimeout, h1, hge, h2, hlt, Pending.pollOutput]
        rw [ho, if_neg hn, if_neg hk]
        simp only
        congr 1
        have hw : second * 2 ^ (min (k + 1) 5) = 1000000000 * waitSecs (k + 1) := by
          unfold second waitSecs
          match k with
          | 0 => rfl
          | 1 => rfl
          | 2 => rfl
          | 3 => rfl
          | n + 4 => simp [show min (n + 4 + 1) 5 = 5 by omega]
        rw [← hw]
        exact ih _ (k + 1) _ rfl rfl (by omega) rfl

/-- **C46.** After the first ClientHello has been sent and the first `handle_timeout` at `t0`, for every
sequence of `handle_timeout` instants the auto-sensing client repeats the identical ClientHello exactly
when the ideal schedule says so and fails exactly after `retries` repetitions. -/
theorem hybrid_schedule (retries t0 start : Nat) (wire : Bytes) (calls : List Nat) :
    let p0 := ((Pending.new wire start).pollOutput wire.length).1
    observeAll retries p0 (t0 :: calls) =
      .quiet :: ideal retries 0 (t0 + 1000000000 * waitSecs 0) calls := by
  intro p0
  have hp0 : p0 = { Pending.new wire start with needsSend := false } := by
    simp [p0, Pending.pollOutput, Pending.new]
  have ho : observe p0 retries t0 =
      ({ p0 with lastNow := t0, retransmitAt := some (t0 + second) }, .quiet) := by
    simp [hp0, observe, Pending.handleTimeout, Pending.new, Pending.pollOutput]
  simp only [observeAll, ho]
  congr 1
  apply observe_all_spec
  · simp [waitSecs, second]
  · simp [hp0, Pending.new]
  · omega
  · simp [hp0]

/-- **C46 (first transmission, any buffer).** The ClientHello is handed out once per arming, and a
buffer that is too small loses nothing. -/
theorem hybrid_small_buffer (p : Pending) (cap : Nat) (h : p.needsSend = true) (hc : cap < p.wire.length) :
    p.pollOutput cap = (p, .bufferTooSmall p.wire.length) := by
  simp [Pending.pollOutput, h, hc]

/-- **C46 (deadline reported).** -/
theorem hybrid_timeout_future (p : Pending) (retries now cap at_ : Nat)
    (h : (p.handleTimeout retries now).2 = true)
    (ho : ((p.handleTimeout retries now).1.pollOutput cap).2 = .timeout at_) : now < at_ := by
  have hs : 0 < second := by decide
  have hp : ∀ k, 0 < second * 2 ^ k := fun k => Nat.mul_pos hs (Nat.pow_pos (by omega))
  unfold Pending.handleTimeout at h ho
  cases hr : p.retransmitAt with
  | none =>
    simp only [hr, Pending.pollOutput] at h ho
    repeat' split at ho
    all_goals simp_all
    omega
  | some d =>
    simp only [hr] at h ho
    by_cases hd : now ≥ d
    · by_cases hc : p.retransmitCount ≥ retries
      · simp [hd, hc] at h
      · simp only [hd, hc, if_true, if_false, Pending.pollOutput] at ho
        repeat' split at ho
        all_goals simp_all
    · simp only [hd, if_false, Pending.pollOutput] at ho
      repeat' split at ho
      all_goals simp_all

example : observeAll 2 ((Pending.new [1, 2, 3] 0).pollOutput 3).1
    [0, 999999999, 1000000000, 2999999999, 3000000000, 6999999999, 7000000000] =
    [.quiet, .quiet, .resend, .quiet, .resend, .quiet, .giveUp] := by decide

/-! ## C47: PSK peek -/

/-- A ClientHello body up to and including the cipher suites. -/
def chBody (version random sid cookie : Bytes) (suites : List Nat) (tail : Bytes) : Bytes :=
  version ++ (random ++ (UInt8.ofNat sid.length :: (sid ++ (UInt8.ofNat cookie.length :: (cookie ++
    (beBytes 2 (2 * suites.length) ++ ((suites.map (beBytes 2)).flatten ++ tail)))))))

/-- The first offered suite that is allowed. -/
def pick (allowed suites : List Nat) : Option Nat := suites.find? (allowed.contains ·)

theorem firstAllowed_spec (allowed : List Nat) (isPsk : Nat → Bool) (suites : List Nat)
    (h : ∀ s ∈ suites, s < 65536) :
    firstAllowed allowed isPsk (suites.map (beBytes 2)).flatten =
      if (pick allowed suites).any isPsk then .yes else .no := by
  induction suites with
  | nil => simp [firstAllowed, pick]
  | cons s ss ih =>
    have hb : ∃ a b : UInt8, beBytes 2 s = [a, b] := ⟨_, _, rfl⟩
    obtain ⟨a, b, hab⟩ := hb
    have hv : ofBe [a, b] = s := by
      rw [← hab]; exact ofBe_beBytes_of_lt (by have := h s (by simp); omega)
    simp only [List.map_cons, List.flatten_cons, hab, List.cons_append, List.nil_append, firstAllowed, hv]
    rw [ih (fun x hx => h x (by simp [hx]))]
    by_cases hc : allowed.contains s = true
    · rw [if_pos hc, pick, List.find?_cons_of_pos hc]; simp
    · rw [if_neg hc, pick, pick, List.find?_cons_of_neg hc]

/-- **C47 (exactness).** For a well-formed ClientHello the peek says yes exactly when the first offered
suite the configuration allows is a PSK suite. -/
theorem psk_peek_exact (allowed : List Nat) (isPsk : Nat → Bool)
    (version random sid cookie : Bytes) (suites : List Nat) (tail hdr hsMid5 tail1 tail2 : Bytes)
    (h1 : version.length = 2) (h2 : random.length = 32) (h3 : sid.length < 256) (h4 : cookie.length < 256)
    (h5 : ∀ s ∈ suites, s < 65536) (h6 : suites.length < 32768)
    (h7 : hdr.length = 10) (h8 : hsMid5.length = 5)
    (h9 : (chBody version random sid cookie suites tail).length + tail1.length < 65536 - 12) :
    clientHelloWantsPsk
        (framed hdr 1 (hsMid5 ++ [0, 0, 0]) (chBody version random sid cookie suites tail) tail1 tail2)
        allowed isPsk =
      if (pick allowed suites).any isPsk then .yes else .no := by
  generalize hB : chBody version random sid cookie suites tail = B at h9
  have h8' : (hsMid5 ++ [(0 : UInt8), 0, 0]).length = 8 := by simp [h8]
  obtain ⟨f1, f2, f3⟩ := framed_opens hdr 1 (hsMid5 ++ [0, 0, 0]) B tail1 tail2 h7 h8' h9
  generalize hrb : (1 : UInt8) :: (hsMid5 ++ [0, 0, 0] ++ (beBytes 3 B.length ++ (B ++ tail1))) = rb at f3
  have hrl : rb.length = 12 + B.length + tail1.length := by rw [← hrb]; simp [h8]; omega
  have hr0 : rb.getD 0 0 = 1 := by rw [← hrb]; rfl
  unfold clientHelloWantsPsk clientHelloHandshake
  have hc1 : ¬ ((framed hdr 1 (hsMid5 ++ [0, 0, 0]) B tail1 tail2).length < 13 ∨
      (framed hdr 1 (hsMid5 ++ [0, 0, 0]) B tail1 tail2).getD 0 0 ≠ 22) := by
    rw [f2]; simp; omega
  rw [if_neg hc1, f3]
  simp only
  rw [if_neg (show ¬ (rb.length < 12 ∨ rb.getD 0 0 ≠ 1) by rw [hr0]; simp; omega)]
  simp only
  rw [if_neg (show ¬ rb.length < 12 by omega)]
  have hs1 : slice rb 6 3 = [0, 0, 0] :=
    slice_at _ (1 :: hsMid5) _ (beBytes 3 B.length ++ (B ++ tail1)) _ _ (by rw [← hrb]; simp)
      (by simp [h8]) rfl
  have hs2 : slice rb 9 3 = beBytes 3 B.length :=
    slice_at _ (1 :: (hsMid5 ++ [0, 0, 0])) _ (B ++ tail1) _ _ (by rw [← hrb]; simp) (by simp [h8])
      (by simp)
  have hg : get? rb 12 B.length = some B := by
    unfold get?
    rw [if_pos (by omega)]
    congr 1
    exact slice_at _ (1 :: (hsMid5 ++ [0, 0, 0] ++ beBytes 3 B.length)) _ tail1 _ _
      (by rw [← hrb]; simp) (by simp [h8]) rfl
  rw [hs1, hs2, if_neg (by decide), ofBe_beBytes_of_lt (by omega), hg]
  simp only
  have hsid : B[34]? = some (UInt8.ofNat sid.length) := by
    rw [← hB, chBody, ← List.append_assoc,
      List.getElem?_append_right (by simp [h1, h2])]
    simp [h1, h2]
  rw [hsid]
  simp only
  have hsv : (UInt8.ofNat sid.length).toNat = sid.length := by simp; omega
  have hcv : (UInt8.ofNat cookie.length).toNat = cookie.length := by simp; omega
  rw [hsv]
  have hck : B[34 + (1 + sid.length)]? = some (UInt8.ofNat cookie.length) := by
    have : B = (version ++ (random ++ (UInt8.ofNat sid.length :: sid))) ++
        (UInt8.ofNat cookie.length :: (cookie ++
        (beBytes 2 (2 * suites.length) ++ ((suites.map (beBytes 2)).flatten ++ tail)))) := by
      rw [← hB, chBody]; simp
    have hl : (version ++ (random ++ (UInt8.ofNat sid.length :: sid))).length = 34 + (1 + sid.length) := by
      simp [h1, h2]; omega
    rw [this, List.getElem?_append_right (by omega), hl]
    simp
  rw [hck]
  simp only
  rw [hcv]
  generalize hpre : version ++ (random ++ (UInt8.ofNat sid.length :: (sid ++
    (UInt8.ofNat cookie.length :: cookie)))) = pre
  have hprel : pre.length = 34 + (1 + sid.length) + (1 + cookie.length) := by
    rw [← hpre]; simp [h1, h2]; omega
  have hBpre : B = pre ++ (beBytes 2 (2 * suites.length) ++ ((suites.map (beBytes 2)).flatten ++ tail)) := by
    rw [← hB, ← hpre, chBody]; simp
  have hfl : ((suites.map (beBytes 2)).flatten).length = 2 * suites.length := by
    clear hBpre hB h5 h6 h9
    induction suites with
    | nil => rfl
    | cons s ss ih => simp [ih]; omega
  have hBl : B.length = pre.length + 2 + 2 * suites.length + tail.length := by
    rw [hBpre]; simp only [List.length_append, beBytes_length, hfl]; omega
  rw [← hprel]
  rw [if_neg (by omega), if_neg (by omega)]
  have hss : slice B pre.length 2 = beBytes 2 (2 * suites.length) :=
    slice_at _ pre _ _ _ _ hBpre rfl (by simp)
  rw [hss, ofBe_beBytes_of_lt (by omega)]
  rw [if_neg (by omega), if_neg (by omega)]
  have hsu : slice B (pre.length + 2) (2 * suites.length) = (suites.map (beBytes 2)).flatten :=
    slice_at _ (pre ++ beBytes 2 (2 * suites.length)) _ tail _ _ (by rw [hBpre]; simp) (by simp) hfl
  rw [hsu]
  exact firstAllowed_spec allowed isPsk suites h5

theorem firstAllowed_no_panic (allowed : List Nat) (isPsk : Nat → Bool) (n : Nat) :
    ∀ b : Bytes, b.length ≤ n → firstAllowed allowed isPsk b ≠ .panic := by
  induction n with
  | zero => intro b hb; simp at hb; subst hb; simp [firstAllowed]
  | succ n ih =>
    intro b hb
    match b with
    | [] => simp [firstAllowed]
    | [_] => simp [firstAllowed]
    | x :: y :: rest =>
      simp only [firstAllowed]
      split
      · split <;> simp
      · exact ih rest (by simp at hb; omega)

/-- **C47 (totality).** No datagram makes the peek read outside it. -/
theorem psk_peek_total (packet : Bytes) (allowed : List Nat) (isPsk : Nat → Bool) :
    clientHelloWantsPsk packet allowed isPsk ≠ .panic := by
  unfold clientHelloWantsPsk
  cases hch : clientHelloHandshake packet with
  | none => simp
  | some rb =>
    have h12 : ¬ rb.length < 12 := by
      unfold clientHelloHandshake at hch
      split at hch
      · simp at hch
      split at hch
      · simp at hch
      split at hch
      · simp at hch
      · rename_i h; simp only [Option.some.injEq] at hch; subst hch; simp at h; omega
    simp only
    rw [if_neg h12]
    split
    · simp
    split
    · simp
    split
    · simp
    split
    · simp
    split
    · simp
    split
    · omega
    split
    · simp
    split
    · omega
    · exact firstAllowed_no_panic allowed isPsk _ _ (Nat.le_refl _)

/-- **C47 (yes implies).** Whatever the datagram, yes is only ever said about a first fragment of a
ClientHello for which an allowed PSK suite exists. -/
theorem psk_peek_yes (packet : Bytes) (allowed : List Nat) (isPsk : Nat → Bool)
    (h : clientHelloWantsPsk packet allowed isPsk = .yes) :
    packet[0]? = some 22 ∧ packet[13]? = some 1 ∧ ∃ s ∈ allowed, isPsk s = true := by
  have hfa : ∀ n (b : Bytes), b.length ≤ n → firstAllowed allowed isPsk b = .yes →
      ∃ s ∈ allowed, isPsk s = true := by
    intro n
    induction n with
    | zero => intro b hb hy; simp at hb; subst hb; simp [firstAllowed] at hy
    | succ n ih =>
      intro b hb hy
      match b with
      | [] => simp [firstAllowed] at hy
      | [_] => simp [firstAllowed] at hy
      | x :: y :: rest =>
        simp only [firstAllowed] at hy
        split at hy
        · rename_i hc
          split at hy
          · rename_i hp; exact ⟨_, by simpa using hc, hp⟩
          · simp at hy
        · exact ih rest (by simp at hb; omega) hy
  unfold clientHelloWantsPsk at h
  cases hch : clientHelloHandshake packet with
  | none => simp [hch] at h
  | some rb =>
    have hshape : packet[0]? = some 22 ∧ packet[13]? = some 1 := by
      unfold clientHelloHandshake at hch
      split at hch
      · simp at hch
      rename_i hc
      split at hch
      · simp at hch
      rename_i rb' hg
      split at hch
      · simp at hch
      rename_i hr
      simp only [Option.some.injEq] at hch; subst hch
      unfold get? at hg
      split at hg
      · simp only [Option.some.injEq] at hg
        cases packet with
        | nil => simp at hc
        | cons b tl =>
          simp only [List.getD_cons_zero, not_or, ne_eq, Decidable.not_not] at hc
          obtain ⟨hc1, hc2⟩ := hc
          subst hc2
          refine ⟨rfl, ?_⟩
          have hpos : 0 < ofBe (slice (22 :: tl) 11 2) := by
            rcases Nat.eq_zero_or_pos (ofBe (slice (22 :: tl) 11 2)) with h0 | h0
            · rw [h0] at hg; rw [← hg] at hr; simp [slice] at hr
            · exact h0
          have hget : rb'[0]? = ((22 : UInt8) :: tl)[13]? := by
            rw [← hg]; simp only [slice] at hpos ⊢
            rw [List.getElem?_take_of_lt hpos, List.getElem?_drop]
          rw [← hget]
          cases rb' with
          | nil => simp at hr
          | cons m rt => simp at hr; simp [hr.2]
      · simp at hg
    refine ⟨hshape.1, hshape.2, ?_⟩
    simp only [hch] at h
    repeat' split at h
    all_goals first | (simp at h; done) | exact hfa _ _ (Nat.le_refl _) h

example : clientHelloWantsPsk (framed (List.replicate 10 0) 1 [0, 0, 0, 0, 0, 0, 0, 0]
    (chBody [0xFE, 0xFD] (List.replicate 32 0) [5] [] [0xC02B, 0xC0A8] [1, 0]) [] [])
    [0xC0A8] (· == 0xC0A8) = .yes := by decide +kernel

end Verif.Props.Auto

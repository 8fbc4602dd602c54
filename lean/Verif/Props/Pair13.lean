import Verif.Props.Send13
import Verif.Props.Epoch13
import Verif.Props.Seq13
import Verif.Props.Recv12
/-!
# Records from one DTLS 1.3 endpoint to the other (C29)
-/
namespace Verif.Props.Pair13
open Verif Verif.E13 Verif.Wire Verif.M
open Verif.E12 (outputs Call Ret)
open Verif.Props.Send13 (Sizes Joined)
open Verif.Aead (nonceXor)

/-- What is assumed of the cryptography of a sender and a receiver: opening inverts sealing, sealing adds `T` bytes,
which is the tag length of all suites, the receiver's provider has the sender's suites and the same function makes
the record-number mask. -/
structure Matched (ea eb : Env) (T : Nat) : Prop where
  opens : ∀ k n a p c, ea.enc k n a p = some c → eb.dec k n a c = some p
  sizes : Sizes ea T
  tag : ∀ suite t, ea.suiteTag suite = some t → eb.suiteTag suite = some t
  mask : ea.snMask = eb.snMask

/-- The receiver `b` can open records of `epoch`: it expects protected records, has keys `k` for the epoch and the epoch is
the one its two low bits stand for. -/
structure Keyed (b : Eng) (suite : Nat) (k : Keys) (epoch : Nat) : Prop where
  enc : b.peerEnc = true
  suite : b.suite = some suite
  keys : b.recvKeys epoch = some k
  bits : b.resolveEpoch (epoch % 4) = epoch

/-- And the number `seq` is within the reconstruction window. -/
structure Known (b : Eng) (suite : Nat) (k : Keys) (epoch seq : Nat) : Prop extends Keyed b suite k epoch where
  window : ∃ expected, (epoch = 2 → b.hsExpected = expected) ∧
    (epoch ≠ 2 → ∀ r, b.appRecv.find? (·.epoch == epoch) = some r → r.expected = expected) ∧
    seq < expected + 32768 ∧ expected < seq + 32768

/-- And it passes the replay check. -/
structure Ready (b : Eng) (suite : Nat) (k : Keys) (epoch seq : Nat) : Prop extends Known b suite k epoch seq where
  fresh : b.replayCheck epoch seq = true

theorem Known.seq {b : Eng} {suite k epoch seq} (h : Known b suite k epoch seq) :
    b.resolveSeq epoch (seq % 65536) true = seq := by
  obtain ⟨ex, h1, h2, h3, h4⟩ := h.window
  unfold Eng.resolveSeq
  simp only [if_true]
  by_cases he : epoch = 2
  · rw [if_pos he, h1 he]
    exact Seq13.reconstruct16 _ _ h3 h4
  · rw [if_neg he]
    have hk := h.keys
    unfold Eng.recvKeys at hk
    rw [if_neg he] at hk
    cases hf : b.appRecv.find? (·.epoch == epoch) with
    | none => rw [hf] at hk; cases hk
    | some r =>
      simp only [Option.map_some, Option.getD_some]
      rw [h2 he r hf]
      exact Seq13.reconstruct16 _ _ h3 h4

/-- The record as written, taken apart. -/
theorem wire_shape (env : Env) (suite : Nat) (k : Keys) (ep seq : Nat) (c : Bytes) :
    ∃ x y l m : UInt8, beBytes 2 seq = [x, y] ∧ beBytes 2 (c.length % 65536) = [l, m] ∧
      wireOf env suite k ep seq c = cipherFlags ep :: (x ^^^ (snMaskOf env suite k.sn c).1) ::
        (y ^^^ (snMaskOf env suite k.sn c).2) :: l :: m :: c := by
  obtain ⟨x, y, h1⟩ : ∃ x y, beBytes 2 seq = [x, y] := ⟨_, _, rfl⟩
  obtain ⟨l, m, h2⟩ : ∃ x y, beBytes 2 (c.length % 65536) = [x, y] := ⟨_, _, rfl⟩
  refine ⟨x, y, l, m, h1, h2, ?_⟩
  simp [wireOf, serializeCipher13, h1, h2, maskSeq]

/-- The receiver takes the mask off again. -/
theorem unmask_wire {ea eb : Env} {T : Nat} (hm : Matched ea eb T) {b : Eng} {suite tag : Nat} {k : Keys} {ep seq : Nat} {c : Bytes}
    (h : Keyed b suite k ep) (ht : ea.suiteTag suite = some tag) :
    unmask eb b (wireOf ea suite k ep seq c) = some (serializeCipher13 ep seq (c.length % 65536) c) := by
  obtain ⟨x, y, l, m, h1, h2, h3⟩ := wire_shape ea suite k ep seq c
  obtain ⟨f1, f2, f3, f4, f5⟩ := Wire.cipherFlags_spec ep
  have htag : b.tag eb = some tag := by unfold Eng.tag; rw [h.suite]; exact hm.tag _ _ ht
  have hx : ∀ a c : UInt8, a ^^^ c ^^^ c = a := by
    intro a c; rw [UInt8.xor_assoc, UInt8.xor_self, UInt8.xor_zero]
  have hs : serializeCipher13 ep seq (c.length % 65536) c = cipherFlags ep :: x :: y :: l :: m :: c := by
    simp [serializeCipher13, h1, h2]
  rw [h3, hs]
  unfold unmask
  simp only [cipherHeaderLen, f3, f4, f5, if_true, h.bits, h.keys, h.suite, htag]
  by_cases hl : 16 ≤ c.length
  · rw [if_pos (by simp only [List.length_cons]; omega)]
    simp only [List.drop, unmaskWith, f3, if_true]
    unfold snMaskOf
    rw [if_pos hl, hm.mask]
    simp [hx]
  · rw [if_neg (by simp only [List.length_cons]; omega)]
    unfold snMaskOf
    rw [if_neg hl]
    simp

/-- What the receiver makes of a record sealed with its keys. -/
theorem open_wire {ea eb : Env} {T : Nat} (hm : Matched ea eb T) {b : Eng} {suite tag : Nat} {k : Keys}
    {ct : UInt8} {ep seq : Nat} {content c : Bytes} (h : Ready b suite k ep seq) (ht : ea.suiteTag suite = some tag)
    (hc : ea.enc k.key (nonceXor k.iv seq) (cipherHeader ep seq ((innerPlaintext ct content).length + tag))
      (innerPlaintext ct content) = some c)
    (h0 : ct ≠ 0) (hl : content.length + 1 + T < 65536) :
    ∃ rx b', recordParse eb (wireOf ea suite k ep seq c) b = (.ok (some rx), b') ∧
      rx.rcd.ctype = ct ∧ rx.rcd.epoch = ep ∧ rx.rcd.seq = seq ∧ rx.rcd.fragment = content ∧
      rx.rcd.length = content.length ∧ rx.opened = true ∧ rx.handled = false ∧
      rx.hss = (if ct = ctHandshake then parseHandshakes 8 content else []) ∧
      b' = { b.replayUpdate ep seq with
        log := .opened k (nonceXor k.iv seq) (cipherHeader ep seq c.length) c (innerPlaintext ct content) ep seq :: b.log } := by
  obtain ⟨x, y, l, m, h1, h2, h3⟩ := wire_shape ea suite k ep seq c
  obtain ⟨f1, f2, f3, f4, f5⟩ := Wire.cipherFlags_spec ep
  have htag : b.tag eb = some tag := by unfold Eng.tag; rw [h.suite]; exact hm.tag _ _ ht
  have hT : tag = T := hm.sizes.tag _ _ ht
  have hcl : c.length = content.length + 1 + T := by
    rw [hm.sizes.enc _ _ _ _ _ hc]; simp [innerPlaintext]
  have hmod : c.length % 65536 = c.length := Nat.mod_eq_of_lt (by omega)
  have hp := Wire.cipher13_roundtrip ep seq c [] (by omega)
  rw [List.append_nil] at hp
  have hs : serializeCipher13 ep seq c.length c = cipherHeader ep seq c.length ++ c := by
    simp [serializeCipher13, cipherHeader]
  have hh : (cipherHeader ep seq c.length).length = 5 := by simp [cipherHeader, beBytes_length]
  have hfl : flagsOf (wireOf ea suite k ep seq c) = cipherFlags ep := by rw [h3]; rfl
  have hin : (innerPlaintext ct content).length + tag = c.length := by
    simp [innerPlaintext]; omega
  have hrec := Wire.inner_roundtrip ct content 0 h0
  simp only [List.replicate_zero, List.append_nil] at hrec
  unfold recordParse
  simp only [hfl, f1, h.enc, Bool.and_self, if_true]
  rw [unmask_wire hm h.toKeyed ht, hmod]
  simp only [hp, f3]
  unfold openRecord
  simp only [h.bits, h.seq, h.fresh, htag, h.keys, hs, Bool.not_true, Bool.false_eq_true, if_false]
  rw [if_neg (by simp only [List.length_append]; omega)]
  rw [List.take_left' hh, List.drop_left' hh]
  rw [hin] at hc
  rw [hm.opens _ _ _ _ _ hc]
  simp only [hrec]
  refine ⟨_, _, rfl, rfl, rfl, rfl, rfl, ?_, rfl, rfl, rfl, rfl⟩
  show content.length % 65536 = content.length
  exact Nat.mod_eq_of_lt (by omega)

open Verif.Props.Wire (Out13) in
/-- A protected record as written frames itself. -/
theorem wire_out (env : Env) (suite : Nat) (k : Keys) (ep seq : Nat) (c : Bytes) (h : c.length < 65536) :
    ∃ o : Out13, o.WF ∧ o.bytes = wireOf env suite k ep seq c := by
  obtain ⟨x, y, l, m, h1, h2, h3⟩ := wire_shape env suite k ep seq c
  refine ⟨.cipher true ep (ofBe [x ^^^ (snMaskOf env suite k.sn c).1, y ^^^ (snMaskOf env suite k.sn c).2]) c, h, ?_⟩
  rw [← Wire.sent_form, h3]
  have := beBytes_ofBe [x ^^^ (snMaskOf env suite k.sn c).1, y ^^^ (snMaskOf env suite k.sn c).2]
  simp only [List.length_cons, List.length_nil] at this
  rw [Nat.mod_eq_of_lt h] at h2
  simp only [serializeCipher13]
  rw [this, h2]
  rfl

open Verif.Window in
theorem update_check (w : ReplayWindow) (n : Nat) : (w.update n).check n = false := by
  have one : ∀ x : BitVec 64, ∀ k < 64, ((x ||| 1#64 <<< k) &&& 1#64 <<< k) ≠ 0#64 := by
    intro x k hk h
    have := and_mask_eq_zero (x ||| 1#64 <<< k) k hk
    rw [h, BitVec.getLsbD_or, getLsbD_one_shiftLeft _ _ hk] at this
    simp at this
  unfold ReplayWindow.update
  dsimp only
  split
  · split
    · simp [ReplayWindow.check]
    · have := one (w.window <<< (n - w.maxSeq)) 0 (by omega)
      simp only [ReplayWindow.check]
      simpa using this
  · split
    · rename_i h1 h2
      have := one w.window (w.maxSeq - n) h2
      simp only [ReplayWindow.check]
      rw [if_neg h1, if_neg (by omega)]
      simpa using this
    · rename_i h1 h2
      simp only [ReplayWindow.check]
      rw [if_neg h1, if_pos (by omega)]

open Verif.Window in
theorem update_max (w : ReplayWindow) (n : Nat) : (w.update n).maxSeq = max w.maxSeq n := by
  unfold ReplayWindow.update
  by_cases h : n > w.maxSeq
  · rw [if_pos h]
    dsimp only
    split <;> ((try dsimp only); omega)
  · rw [if_neg h]
    dsimp only
    split <;> ((try dsimp only); omega)

theorem find_updateFirst (ep : Nat) (f : RecvEpoch → RecvEpoch) (hf : ∀ r, (f r).epoch = r.epoch) (l : List RecvEpoch) :
    (updateFirst ep f l).find? (·.epoch == ep) = (l.find? (·.epoch == ep)).map f := by
  induction l with
  | nil => rfl
  | cons x l ih =>
    unfold updateFirst
    by_cases h : x.epoch = ep
    · rw [if_pos h]
      simp [hf, h]
    · rw [if_neg h]
      simp [h, ih]

/-- A number is spent once it was accepted. -/
theorem replayUpdate_check (b : Eng) (ep seq : Nat) : (b.replayUpdate ep seq).replayCheck ep seq = false := by
  unfold Eng.replayUpdate Eng.replayCheck
  by_cases h : ep = 2
  · simp only [if_pos h]
    exact update_check _ _
  · simp only [if_neg h]
    rw [find_updateFirst ep (fun e => { e with replay := e.replay.update seq, expected := max e.expected (seq + 1) })
      (fun _ => rfl)]
    cases b.appRecv.find? (·.epoch == ep) with
    | none => rfl
    | some r => exact update_check _ _

open Verif.Props.Wire (Out13) in
/-- **C29.** Whenever `create_ciphertext_record` succeeds, for any content type but 0 and any content that
fits a record, the bytes it adds to the outgoing datagrams are found again behind any records of that
datagram, and a receiver that holds the keys and is ready for the number accepts exactly the content and type sent,
with the full epoch and number, whatever the record-number mask. -/
theorem protected_roundtrip {ea eb : Env} {T : Nat} (hm : Matched ea eb T) {a a' b : Eng} {ct : UInt8} {ep : Nat}
    {save : Bool} {content : Bytes} (h : createCipher ea ct ep save content a = (.ok (), a'))
    (h0 : ct ≠ 0) (hl : content.length + 1 + T < 65536)
    (hb : ∀ suite k, a.suite = some suite → a.slotKeys (a.slot ep) = some k →
      Ready b suite k ep (a.slotSeq (a.slot ep))) :
    ∃ w, Joined w a.tx a'.tx ∧
      (∀ rs : List Out13, (∀ r ∈ rs, r.WF) →
        split13 ((rs.map Out13.bytes).flatten ++ w) = (rs.map Out13.bytes ++ [w], .done)) ∧
      ∃ rx b', recordParse eb w b = (.ok (some rx), b') ∧ rx.rcd.ctype = ct ∧ rx.rcd.fragment = content ∧
        rx.rcd.epoch = ep ∧ rx.rcd.seq = a.slotSeq (a.slot ep) ∧ rx.opened = true ∧
        b'.replayCheck ep (a.slotSeq (a.slot ep)) = false := by
  revert h
  refine createCipher_ind (motive := fun r => r = (.ok (), a') → _) ea ct ep save content a ?_ ?_ ?_ ?_
  · intro _ _ h; cases h
  · intro _ _ _ h; cases h
  · intro _ _ _ _ _ _ _ _ h; cases h
  intro suite tag k c hs _ _ _ h
  have hcl : c.length = content.length + 1 + T := by
    rw [hm.sizes.enc _ _ _ _ _ hs.enc]; simp [innerPlaintext]
  have hr := hb suite k hs.hsuite hs.keys
  obtain ⟨rx, b', g1, g2, g3, g4, g5, _, g6, _, _, g7⟩ := open_wire hm hr hs.htag hs.enc h0 hl
  refine ⟨wireOf ea suite k ep (a.slotSeq (a.slot ep)) c, ?_, ?_, rx, b', g1, g2, g5, g3, g4, g6, ?_⟩
  · have h2 := congrArg (fun x => TxPart.tx (Eng.q x.2)) h
    dsimp only at h2
    rw [emitCipher_q] at h2
    have h3 : a'.tx = pushTx a.tx (canAppend a (5 + c.length)) (wireOf ea suite k ep (a.slotSeq (a.slot ep)) c) :=
      h2.symm
    rw [h3]
    exact Send13.joined_pushTx _ _ _ (fun h => canAppend_ne h)
  · intro rs hw
    obtain ⟨o, ho, hob⟩ := wire_out ea suite k ep (a.slotSeq (a.slot ep)) c (by omega)
    have := Wire.split13_concat (rs ++ [o]) (by
      intro r hr
      rcases List.mem_append.mp hr with hr | hr
      · exact hw r hr
      · rw [List.mem_singleton.mp hr]; exact ho) none
    simpa [hob] using this
  · rw [g7]
    exact replayUpdate_check b ep _

/-! ## A stream of application data -/

variable {ea eb : PEnv} {A B : Role} {T : Nat}

/-- The sending session: connected, nothing waiting to go out or to be delivered, keys `k` of a suite. -/
structure Sender (a : Ses A.St) (suite : Nat) (k : Keys) : Prop where
  st : a.st = A.app
  events : a.events = []
  tx : a.eng.tx = []
  rx : a.eng.rx = []
  suite : a.eng.suite = some suite
  slot : a.eng.slot a.eng.appEpoch = .app
  keys : a.eng.appSend = some k
  epoch : 3 ≤ a.eng.appEpoch
  room : 0 < a.eng.cfg.maxTx

/-- The receiving session: connected, not closing, nothing waiting, no KeyUpdate due, and holding the keys `k`. -/
structure Receiver (b : Ses B.St) (suite : Nat) (k : Keys) (epoch : Nat) (r : RecvEpoch) : Prop where
  st : b.st = B.app
  events : b.events = []
  queued : b.queued = []
  pendingKu : b.pendingKu = false
  needsKu : b.eng.needsKu = false
  tx : b.eng.tx = []
  rx : b.eng.rx = []
  close : b.eng.closeSeq = none
  release : b.eng.release = true
  enc : b.eng.peerEnc = true
  suite : b.eng.suite = some suite
  bits : b.eng.resolveEpoch (epoch % 4) = epoch
  held : b.eng.appRecv.find? (·.epoch == epoch) = some r
  keys : r.keys = k
  mark : r.replay.maxSeq < r.expected ∨ r.replay = Window.ReplayWindow.new
  room : 0 < b.eng.cfg.maxRx

theorem seals_ok {env : Env} {e : Eng} {suite : Nat} {k : Keys} {ct : UInt8} {ep : Nat} {d c : Bytes}
    (h1 : e.suite = some suite) (h2 : e.tag env = some T) (h3 : e.slot ep = .app) (h4 : e.appSend = some k)
    (hc : env.enc k.key (nonceXor k.iv e.appSeq) (cipherHeader ep e.appSeq ((innerPlaintext ct d).length + T))
      (innerPlaintext ct d) = some c)
    (h5 : e.tx = []) (h6 : 0 < e.cfg.maxTx) (h7 : e.appSeq < 2 ^ 48 - 1) :
    createCipher env ct ep false d e = (.ok (), emitCipher env { e with
        log := .sealed k (nonceXor k.iv e.appSeq) ep e.appSeq :: e.log } suite .app k ct ep false d c) := by
  have hk : e.slotKeys (e.slot ep) = some k := by rw [h3]; exact h4
  have hsq : e.slotSeq (e.slot ep) = e.appSeq := by rw [h3]; rfl
  show sealCipher env ct ep d e = _
  unfold sealCipher
  split
  · rename_i su tg g1 g2
    cases h1.symm.trans g1
    cases h2.symm.trans g2
    split
    · rename_i g3; cases hk.symm.trans g3
    · rename_i k' g3
      cases hk.symm.trans g3
      dsimp only
      rw [hsq, hc, h3]
      dsimp only
      generalize hz : ({ e with log := .sealed k (nonceXor k.iv e.appSeq) ep e.appSeq :: e.log } : Eng) = z
      have hcan : canAppend z (5 + c.length) = false := by
        rw [← hz]
        show (match e.tx.getLast? with
          | some b => !e.sealedDg && decide (b.length + (5 + c.length) ≤ e.cfg.mtu)
          | none => false) = false
        rw [h5]
        rfl
      unfold queueCipher
      dsimp only
      rw [hcan, if_neg, if_neg]
      · rw [← hz]; show ¬ e.appSeq ≥ maxSeq; unfold maxSeq; omega
      · rw [← hz]; show ¬ (!false && decide (e.tx.length ≥ e.cfg.maxTx)) = true
        rw [h5]; simp; omega
  · rename_i g; exact absurd h2 (g _ _ h1)

theorem poll_ev {R : Role} {env : PEnv} (s : Ses R.St) (e : Eng) (n : Nat) (h : s.events = []) :
    call R env { s with eng := e } (.poll n) = (.out (.eng (pollOutput n s.lastNow e).1),
      { s with eng := (pollOutput n s.lastNow e).2 }) := by
  show (let (o, s') := pollM R n { s with eng := e }; ((.out o, s') : Ret × Ses R.St)) = _
  have : pollM R n { s with eng := e } = (.eng (pollOutput n s.lastNow e).1, { s with eng := (pollOutput n s.lastNow e).2 }) := by
    unfold pollM
    split
    · rename_i e l he
      have : s.events = _ := he
      rw [h] at this; cases this
    · rfl
  rw [this]

/-- Sending from a connected session and polling. -/
theorem sender_step (hR : RoleOk A ea keying) (hz : Sizes ea.toEnv T) (henc : ∀ k n a p, (ea.enc k n a p).isSome)
    {a : Ses A.St} {suite : Nat} {k : Keys} (h : Sender a suite k) (ht : ea.suiteTag suite = some T)
    (hq : a.eng.appSeq < 2 ^ 48 - 1) (d : Bytes) (n : Nat) (hn : 5 + d.length + 1 + T ≤ n) :
    ∃ c a1 a2, ea.enc k.key (nonceXor k.iv a.eng.appSeq)
        (cipherHeader a.eng.appEpoch a.eng.appSeq ((innerPlaintext ctAppData d).length + T)) (innerPlaintext ctAppData d) = some c ∧
      call A ea a (.send d) = (.res .ok, a1) ∧
      call A ea a1 (.poll n) = (.out (.eng (.packet (wireOf ea.toEnv suite k a.eng.appEpoch a.eng.appSeq c))), a2) ∧
      Sender a2 suite k ∧ a2.eng.appSeq = a.eng.appSeq + 1 ∧ a2.eng.appEpoch = a.eng.appEpoch := by
  obtain ⟨c, hc⟩ := Option.isSome_iff_exists.mp (henc k.key (nonceXor k.iv a.eng.appSeq)
    (cipherHeader a.eng.appEpoch a.eng.appSeq ((innerPlaintext ctAppData d).length + T)) (innerPlaintext ctAppData d))
  have hcl : c.length = d.length + 1 + T := by
    rw [hz.enc _ _ _ _ _ hc]; simp [innerPlaintext]
  have htag : a.eng.tag ea.toEnv = some T := by unfold Eng.tag; rw [h.suite]; exact ht
  have hsend : createCipher ea.toEnv ctAppData a.eng.appEpoch false d a.eng = (.ok (),
      emitCipher ea.toEnv { a.eng with
        log := .sealed k (nonceXor k.iv a.eng.appSeq) a.eng.appEpoch a.eng.appSeq :: a.eng.log } suite .app k ctAppData
        a.eng.appEpoch false d c) := seals_ok h.suite htag h.slot h.keys hc h.tx h.room hq
  have hf : ∃ sc nk l, emitCipher ea.toEnv { a.eng with
        log := .sealed k (nonceXor k.iv a.eng.appSeq) a.eng.appEpoch a.eng.appSeq :: a.eng.log } suite .app k ctAppData
        a.eng.appEpoch false d c = { a.eng with
      tx := [wireOf ea.toEnv suite k a.eng.appEpoch a.eng.appSeq c], sealedDg := false
      appSeq := a.eng.appSeq + 1, sendCount := sc, needsKu := nk, log := l } := by
    refine ⟨a.eng.sendCount + 1, if a.eng.sendCount + 1 ≥ a.eng.threshold then true else a.eng.needsKu,
      .queued (some k) ctAppData a.eng.appEpoch a.eng.appSeq d ::
        .sealed k (nonceXor k.iv a.eng.appSeq) a.eng.appEpoch a.eng.appSeq :: a.eng.log, ?_⟩
    unfold emitCipher countSent
    dsimp only
    rw [if_pos h.epoch]
    unfold pushWire
    rw [if_neg (by simp)]
    dsimp only
    rw [h.tx]
    rfl
  have hwl := Send13.wireOf_length ea.toEnv suite k a.eng.appEpoch a.eng.appSeq c
  obtain ⟨sc, nk, l, hf⟩ := hf
  rw [hf] at hsend
  generalize hw : wireOf ea.toEnv suite k a.eng.appEpoch a.eng.appSeq c = w at hsend hwl
  have hsched : ∀ e : Eng, ∃ dl, scheduleAck a.lastNow e = { e with ackDeadline := dl } := by
    intro e
    unfold scheduleAck
    repeat' split
    all_goals exact ⟨_, rfl⟩
  generalize he' : ({ a.eng with
    tx := [w], sealedDg := false
    appSeq := a.eng.appSeq + 1, sendCount := sc, needsKu := nk, log := l } : Eng) = e' at hsend
  obtain ⟨dl, hdl⟩ := hsched (purge e')
  have hrx : e'.rx = [] := by rw [← he']; exact h.rx
  have hpoll : pollOutput n a.lastNow e' = (.packet w, { purge e' with ackDeadline := dl, tx := [], log := .sent w :: e'.log }) := by
    have hna : nextApp (purge e') = none := by
      unfold nextApp purge
      rw [hrx]; rfl
    have hrest : pollRest n a.lastNow (purge e') = (.packet w, { purge e' with ackDeadline := dl, tx := [], log := .sent w :: e'.log }) := by
      unfold pollRest
      dsimp only
      rw [hdl]
      dsimp only
      have htx : (purge e').tx = [w] := by rw [← he']; rfl
      rw [htx]
      dsimp only
      rw [if_neg (by omega)]
      rfl
    unfold pollOutput
    dsimp only
    rw [hna]
    dsimp only
    rw [hrest]
    split <;> rfl
  refine ⟨c, { a with eng := e' }, { a with eng := (pollOutput n a.lastNow e').2 }, hc, ?_, ?_, ?_⟩
  · rw [Send13.send_app a h.st hR.appClosed hR.appHalf, hsend]
    rfl
  · rw [poll_ev a e' n h.events, hw]
    rw [hpoll]
  · rw [hpoll, ← he']
    exact ⟨⟨h.st, h.events, rfl, by simp [purge, h.rx], h.suite, h.slot, h.keys, h.epoch, h.room⟩, rfl, rfl⟩

/-- A connected session with nothing to do does nothing. -/
theorem await_idle {St : Type} {env : PEnv} {self : St} {s : Ses St} (h1 : s.eng.needsKu = false) (h2 : s.queued = [])
    (h3 : s.pendingKu = false) (h4 : hasComplete s.eng mtKeyUpdate = false) :
    awaitApplicationData env self s = (.ok self, s) := by
  have hq : ({ s with queued := [] } : Ses St) = s := by cases s; subst h2; rfl
  have g1 : autoKeyUpdate env s = (.ok (), s) := by
    simp only [autoKeyUpdate, bind_eq, M.bind, M.get, M.andThen, h1, Bool.false_eq_true, if_false]
    rfl
  have g2 : drainQueued env s = (.ok (), s) := by
    simp only [drainQueued, bind_eq, M.bind, M.get, M.andThen, M.set, h2, hq]
    rfl
  have g3 : respondKeyUpdate env s = (.ok (), s) := by
    simp only [respondKeyUpdate, bind_eq, M.bind, M.get, M.andThen, h3, Bool.false_eq_true, if_false]
    rfl
  have g4 : takeKeyUpdate env s = (.ok (), s) := by
    simp only [takeKeyUpdate, bind_eq, M.bind, M.get, M.andThen, h4, Bool.false_eq_true, if_false]
    rfl
  simp only [awaitApplicationData, bind_eq, M.bind, g1, g2, g3, g4, M.andThen]
  rfl

/-- The next number is new to the receiver. -/
theorem Receiver.ready {b : Ses B.St} {suite : Nat} {k : Keys} {epoch seq : Nat} {r : RecvEpoch}
    (h : Receiver b suite k epoch r) (he : 3 ≤ epoch) (h1 : r.expected ≤ seq) (h2 : seq < r.expected + 32768) :
    Ready b.eng suite k epoch seq where
  enc := h.enc
  suite := h.suite
  keys := by
    unfold Eng.recvKeys
    rw [if_neg (by omega), h.held, ← h.keys]
    rfl
  bits := h.bits
  window := ⟨r.expected, fun h => by omega, fun _ r' hr => by rw [h.held] at hr; cases hr; rfl, h2, by omega⟩
  fresh := by
    unfold Eng.replayCheck
    rw [if_neg (by omega), h.held]
    show r.replay.check seq = true
    unfold Window.ReplayWindow.check
    split
    · rfl
    · rename_i hlt
      rcases h.mark with hm | hm
      · omega
      · rw [hm] at hlt ⊢
        have : seq = 0 := by simp [Window.ReplayWindow.new] at hlt; exact hlt
        subst this
        decide

theorem mapE_updateFirst_find {ep : Nat} {f : RecvEpoch → RecvEpoch} (hf : ∀ r, (f r).epoch = r.epoch)
    (l : List RecvEpoch) (bits : Nat) :
    (((updateFirst ep f l).filter fun e => e.epoch % 4 == bits).getLast?.map (·.epoch)) =
      ((l.filter fun e => e.epoch % 4 == bits).getLast?.map (·.epoch)) := by
  have key : ∀ l : List RecvEpoch, ((l.filter fun e => e.epoch % 4 == bits).getLast?.map (·.epoch)) =
      ((l.map (·.epoch)).filter fun e => e % 4 == bits).getLast? := by
    intro l
    rw [List.filter_map, List.getLast?_map]
    rfl
  rw [key, key, (map_updateFirst ep f hf l).1]

theorem resolve_replayUpdate (e : Eng) (ep seq bits : Nat) :
    (e.replayUpdate ep seq).resolveEpoch bits = e.resolveEpoch bits := by
  have alt : ∀ e : Eng, e.resolveEpoch bits = if e.hsRecv.isSome && bits == 2 && !e.release then 2 else
      ((e.appRecv.filter fun e => e.epoch % 4 == bits).getLast?.map (·.epoch)).getD bits := by
    intro e
    unfold Eng.resolveEpoch
    split
    · rfl
    · cases (e.appRecv.filter fun e => e.epoch % 4 == bits).getLast? <;> rfl
  rw [alt, alt]
  unfold Eng.replayUpdate
  split
  · rfl
  · dsimp only
    rw [mapE_updateFirst_find (f := fun e =>
      { e with replay := e.replay.update seq, expected := max e.expected (seq + 1) }) (fun _ => rfl)]

/-- What the engine holds after accepting a record into an empty queue. -/
theorem parse_app {ea eb : Env} (hm : Matched ea eb T) (hse : E12.SearchOk eb.search) {b : Eng} {suite : Nat} {k : Keys}
    {ep seq : Nat} {d c : Bytes} (h : Ready b suite k ep seq) (ht : ea.suiteTag suite = some T)
    (hc : ea.enc k.key (nonceXor k.iv seq) (cipherHeader ep seq ((innerPlaintext ctAppData d).length + T))
      (innerPlaintext ctAppData d) = some c)
    (hl : d.length + 1 + T < 65536) (hcl : b.closeSeq = none) (hrx : b.rx = []) (hroom : 0 < b.cfg.maxRx) (he : 3 ≤ ep) :
    ∃ rx l, parsePacket eb (wireOf ea suite k ep seq c) b =
        (.ok (), { b.replayUpdate ep seq with rx := [[rx]], tick := b.tick + 1, log := l }) ∧
      rx.rcd.ctype = ctAppData ∧ rx.rcd.fragment = d ∧ rx.hss = [] ∧ rx.handled = false := by
  obtain ⟨rx, b', g1, g2, g3, g4, g5, _, g6, g7, g8, g9⟩ := open_wire hm h ht hc (by decide) hl
  rw [if_neg (by decide)] at g8
  have hclen : c.length < 65536 := by
    rw [hm.sizes.enc _ _ _ _ _ hc]; simp [innerPlaintext]; omega
  obtain ⟨o, ho, hob⟩ := wire_out ea suite k ep seq c hclen
  have hsp : split13 (wireOf ea suite k ep seq c) = ([wireOf ea suite k ep seq c], .done) := by
    have := Wire.split13_concat [o] (by simpa using ho) none
    simpa [hob] using this
  have hb' : b'.closeSeq = none ∧ b'.rx = [] ∧ b'.cfg = b.cfg ∧ b'.tick = b.tick := by
    rw [g9]
    unfold Eng.replayUpdate
    split <;> exact ⟨hcl, hrx, rfl, rfl⟩
  obtain ⟨q1, q2, q3, q4⟩ := hb'
  have hcls : classify eb rx b' = (.ok (some rx), b') := by
    unfold classify afterClose
    rw [q1, g2, g3]
    rw [if_neg (by simp), if_neg (by omega), if_neg (by decide), if_neg (by decide), if_neg (by decide)]
  have hrp : recordsParse eb (wireOf ea suite k ep seq c) b = (.ok [rx], b') := by
    unfold recordsParse
    rw [hsp]
    simp only [M.bind, parseSlices, g1, M.andThen, List.length_nil]
    rw [if_neg (by decide)]
    simp only [classifyAll, M.bind, hcls, M.andThen, M.pure, List.nil_append]
  refine ⟨rx, b'.log, ?_, g2, g5, g8, g7⟩
  unfold parsePacket
  simp only [M.bind, hrp, M.andThen]
  unfold insertIncoming
  rw [if_neg (by rw [q2, q3]; simp; omega)]
  dsimp only
  rw [g8]
  dsimp only
  unfold insertBySeq
  rw [q2]
  have hsr := hse b'.tick []
  cases hq : eb.search b'.tick [] with
  | at_ i => rw [hq] at hsr; simp at hsr
  | insertAt i =>
    rw [hq] at hsr
    have h0 : i = 0 := by simpa using hsr.1
    subst h0
    simp only [List.map_nil, hq]
    rw [q4, g9]
    rfl

theorem progress_idle {env : PEnv} (hR : RoleOk B env keying) (s : Ses B.St) (hst : s.st = B.app)
    (h : awaitApplicationData env B.app s = (.ok B.app, s)) : progress B env progressFuel s = (.ok (), s) := by
  show progress B env (39 + 1) s = _
  unfold progress
  simp only [bind_eq, M.bind, M.get, M.andThen]
  rw [hst, hR.app, h]
  simp only [if_true]
  rfl

theorem pollRest_idle (n now : Nat) {e : Eng} (h1 : e.tx = []) (h2 : e.closeSeq = none)
    (h3 : scheduleAck now e = { e with ackDeadline := none }) :
    pollRest n now e = (.timeout (pollTimeout now { e with ackDeadline := none }), { e with ackDeadline := none }) := by
  unfold pollRest
  dsimp only
  rw [h3]
  generalize hz : ({ e with ackDeadline := none } : Eng) = z
  have g1 : z.tx = [] := by rw [← hz]; exact h1
  have g2 : z.closeSeq = none := by rw [← hz]; exact h2
  rw [g1]
  dsimp only
  rw [if_neg (by rw [g2]; simp)]

/-- The receiver takes the record, hands out its content and has nothing left. -/
theorem receiver_take (hR : RoleOk B eb keying) (hfst : B.first B.app = false) (hm : Matched ea.toEnv eb.toEnv T)
    (hse : E12.SearchOk eb.search) {b : Ses B.St} {suite : Nat} {k : Keys} {ep seq : Nat} {r : RecvEpoch}
    (h : Receiver b suite k ep r) (he : 3 ≤ ep) (hrdy : Ready b.eng suite k ep seq)
    (ht : ea.suiteTag suite = some T) {d c : Bytes}
    (hc : ea.enc k.key (nonceXor k.iv seq) (cipherHeader ep seq ((innerPlaintext ctAppData d).length + T))
      (innerPlaintext ctAppData d) = some c)
    (hl : d.length + 1 + T < 65536) (n : Nat) (hn : d.length ≤ n) :
    ∃ b1 b2 b3 t, call B eb b (.packet (wireOf ea.toEnv suite k ep seq c)) = (.res .ok, b1) ∧
      call B eb b1 (.poll n) = (.out (.eng (.appData d)), b2) ∧
      call B eb b2 (.poll n) = (.out (.eng (.timeout t)), b3) ∧
      Receiver b3 suite k ep { r with replay := r.replay.update seq, expected := max r.expected (seq + 1) } := by
  obtain ⟨rx, l, hp, g2, g5, g8, g7⟩ := parse_app hm hse hrdy ht hc hl h.close h.rx h.room he
  have hhand : rx.isHandled = false := by unfold Rx.isHandled; rw [g8]; exact g7
  generalize he1 : ({ b.eng.replayUpdate ep seq with rx := [[rx]], tick := b.eng.tick + 1, log := l } : Eng) = e1 at hp
  have hrx1 : e1.rx = [[rx]] := by rw [← he1]
  have hfix : e1.needsKu = false ∧ e1.release = true ∧ e1.tx = [] ∧ e1.closeSeq = none := by
    rw [← he1]
    refine ⟨?_, ?_, ?_, ?_⟩ <;> (unfold Eng.replayUpdate; split <;> first | exact h.needsKu | exact h.release | exact h.tx | exact h.close)
  have hcomp : hasComplete e1 mtKeyUpdate = false := by
    unfold hasComplete completeView
    rw [hrx1]
    simp [hhand, g8]
  have hprog : progress B eb progressFuel { b with eng := e1 } = (.ok (), { b with eng := e1 }) := by
    exact progress_idle hR { b with eng := e1 } h.st
      (await_idle (s := { b with eng := e1 }) hfix.1 h.queued h.pendingKu hcomp)
  have hset : ∀ s : Ses B.St, ∃ am rt, Recv13.settle B s = { s with autoMode := am, retained := rt } := by
    intro s
    unfold Recv13.settle
    split <;> exact ⟨_, _, rfl⟩
  obtain ⟨am, rt, hset⟩ := hset { b with eng := e1 }
  have hcall : call B eb b (.packet (wireOf ea.toEnv suite k ep seq c)) =
      (.res .ok, { b with eng := e1, autoMode := am, retained := rt }) := by
    rw [Recv13.call_packet b _ (by rw [h.st]; exact hfst), hp]
    dsimp only
    rw [hprog]
    dsimp only
    rw [hset]
  have hpur : purge e1 = e1 := by
    unfold purge
    rw [hrx1]
    have : (([[rx]] : List (List Rx)).dropWhile fun i => i.all (·.isHandled)) = [[rx]] := by simp [hhand]
    rw [this, ← hrx1]
  have hnext : nextApp e1 = some rx := by
    unfold nextApp
    rw [hrx1]
    simp [g2, hhand]
  have hpoll1 : pollOutput n b.lastNow e1 = (.appData d,
      { e1 with rx := [[{ rx with handled := true }]], log := .delivered rx.rcd rx.opened :: e1.log }) := by
    unfold pollOutput
    dsimp only
    rw [hpur, if_pos hfix.2.1, hnext]
    dsimp only
    rw [g5, if_neg (by omega), hrx1]
    have : markApp [[rx]] = [[{ rx with handled := true }]] := by
      unfold markApp markAppRec
      simp [g2, hhand]
    rw [this]
  generalize he2 : ({ e1 with rx := [[{ rx with handled := true }]], log := .delivered rx.rcd rx.opened :: e1.log } : Eng)
    = e2 at hpoll1
  have hrx2 : e2.rx = [[{ rx with handled := true }]] := by rw [← he2]
  have hfix2 : e2.release = true ∧ e2.tx = [] ∧ e2.closeSeq = none := by rw [← he2]; exact hfix.2
  have hpur2 : (purge e2).rx = [] := by
    unfold purge
    rw [hrx2]
    simp [Rx.isHandled, g8]
  have hna : nextApp (purge e2) = none := by
    unfold nextApp
    rw [hpur2]; rfl
  have hsc : scheduleAck b.lastNow (purge e2) = { purge e2 with ackDeadline := none } := by
    unfold scheduleAck
    rw [if_pos]
    unfold inProgress
    have : (purge e2).release = true := hfix2.1
    rw [this]
    simp
  have hpoll2 : ∃ t, pollOutput n b.lastNow e2 = (.timeout t, { purge e2 with ackDeadline := none }) := by
    refine ⟨pollTimeout b.lastNow { purge e2 with ackDeadline := none }, ?_⟩
    unfold pollOutput
    dsimp only
    rw [if_pos (show (purge e2).release = true from hfix2.1), hna]
    dsimp only
    exact pollRest_idle n b.lastNow hfix2.2.1 hfix2.2.2 hsc
  obtain ⟨t, hpoll2⟩ := hpoll2
  refine ⟨{ b with eng := e1, autoMode := am, retained := rt }, { b with eng := e2, autoMode := am, retained := rt },
    { b with eng := { purge e2 with ackDeadline := none }, autoMode := am, retained := rt }, t, hcall, ?_, ?_, ?_⟩
  · have := poll_ev (R := B) (env := eb) { b with autoMode := am, retained := rt } e1 n h.events
    rw [show pollOutput n ({ b with autoMode := am, retained := rt } : Ses B.St).lastNow e1 = _ from hpoll1] at this
    exact this
  · have := poll_ev (R := B) (env := eb) { b with autoMode := am, retained := rt } e2 n h.events
    rw [show pollOutput n ({ b with autoMode := am, retained := rt } : Ses B.St).lastNow e2 = _ from hpoll2] at this
    exact this
  · have hrep : ∀ e : Eng, e.replayUpdate ep seq = { e with appRecv := updateFirst ep (fun e : RecvEpoch =>
        { e with replay := e.replay.update seq, expected := max e.expected (seq + 1) }) e.appRecv } := by
      intro e
      unfold Eng.replayUpdate
      rw [if_neg (by omega)]
    have hbits := resolve_replayUpdate b.eng ep seq (ep % 4)
    rw [h.bits] at hbits
    rw [hrep] at he1 hbits
    exact {
      st := h.st, events := h.events, queued := h.queued, pendingKu := h.pendingKu
      needsKu := by rw [← he2, ← he1]; exact h.needsKu
      tx := hfix2.2.1, rx := hpur2, close := hfix2.2.2, release := hfix2.1
      enc := by rw [← he2, ← he1]; exact h.enc
      suite := by rw [← he2, ← he1]; exact h.suite
      bits := by rw [← he2, ← he1]; exact hbits
      held := by
        rw [← he2, ← he1]
        have := find_updateFirst ep (fun e : RecvEpoch =>
          { e with replay := e.replay.update seq, expected := max e.expected (seq + 1) }) (fun _ => rfl) b.eng.appRecv
        rw [h.held] at this
        exact this
      keys := h.keys
      mark := .inl (by
        show (r.replay.update seq).maxSeq < max r.expected (seq + 1)
        rw [update_max]
        rcases h.mark with hm | hm
        · omega
        · rw [hm]; simp only [Window.ReplayWindow.new]; omega)
      room := by rw [← he2, ← he1]; exact h.room }

/-- The same for the numbers from the next on. -/
theorem receiver_step (hR : RoleOk B eb keying) (hfst : B.first B.app = false) (hm : Matched ea.toEnv eb.toEnv T)
    (hse : E12.SearchOk eb.search) {b : Ses B.St} {suite : Nat} {k : Keys} {ep seq : Nat} {r : RecvEpoch}
    (h : Receiver b suite k ep r) (he : 3 ≤ ep) (h1 : r.expected ≤ seq) (h2 : seq < r.expected + 32768)
    (ht : ea.suiteTag suite = some T) {d c : Bytes}
    (hc : ea.enc k.key (nonceXor k.iv seq) (cipherHeader ep seq ((innerPlaintext ctAppData d).length + T))
      (innerPlaintext ctAppData d) = some c)
    (hl : d.length + 1 + T < 65536) (n : Nat) (hn : d.length ≤ n) :
    ∃ b1 b2 b3 r' t, call B eb b (.packet (wireOf ea.toEnv suite k ep seq c)) = (.res .ok, b1) ∧
      call B eb b1 (.poll n) = (.out (.eng (.appData d)), b2) ∧
      call B eb b2 (.poll n) = (.out (.eng (.timeout t)), b3) ∧
      Receiver b3 suite k ep r' ∧ r'.expected = seq + 1 := by
  obtain ⟨b1, b2, b3, t, g1, g2, g3, g4⟩ := receiver_take hR hfst hm hse h he (h.ready he h1 h2) ht hc hl n hn
  exact ⟨b1, b2, b3, _, t, g1, g2, g3, g4, by show max r.expected (seq + 1) = seq + 1; omega⟩

/-- `a` sends the payloads and polls for each; `b` gets the datagrams that arrive and polls until it is told to
wait. The result is the application data `b` was handed. -/
def stream (A B : Role) (ea eb : PEnv) (n : Nat) : Ses A.St → Ses B.St → List (Bytes × Bool) → List Bytes
  | _, _, [] => []
  | a, b, (d, arrives) :: rest =>
    match call A ea (call A ea a (.send d)).2 (.poll n) with
    | (.out (.eng (.packet p)), a') =>
      if arrives then
        let b1 := (call B eb b (.packet p)).2
        let b2 := call B eb b1 (.poll n)
        let b3 := call B eb b2.2 (.poll n)
        ([b2.1, b3.1].filterMap fun | .out (.eng (.appData x)) => some x | _ => none) ++ stream A B ea eb n a' b3.2 rest
      else stream A B ea eb n a' b rest
    | (_, a') => stream A B ea eb n a' b rest

/-- Never 32768 losses in a row, when `lost` were lost before. -/
def Runs : Nat → List (Bytes × Bool) → Prop
  | _, [] => True
  | lost, (_, true) :: rest => lost < 32768 ∧ Runs 0 rest
  | lost, (_, false) :: rest => Runs (lost + 1) rest

/-- **C29, end to end.** Between two connected sessions that hold the same key for the sender's epoch, application
data that is sent and whose datagrams arrive is delivered, exactly as it was sent and in order, whatever
else is lost - unless 32768 datagrams in a row are lost - as long as the record numbers last. -/
theorem stream_delivered (hA : RoleOk A ea keying) (hB : RoleOk B eb keying') (hfst : B.first B.app = false)
    (hm : Matched ea.toEnv eb.toEnv T) (henc : ∀ k n a p, (ea.enc k n a p).isSome) (hse : E12.SearchOk eb.search)
    {suite : Nat} {k : Keys} (ht : ea.suiteTag suite = some T) (n : Nat) (l : List (Bytes × Bool))
    (hl : ∀ x ∈ l, x.1.length + 1 + T < 65536 ∧ 5 + x.1.length + 1 + T ≤ n) :
    ∀ (a : Ses A.St) (b : Ses B.St) (r : RecvEpoch) (lost : Nat), Sender a suite k →
      Receiver b suite k a.eng.appEpoch r → a.eng.appSeq = r.expected + lost → Runs lost l →
      a.eng.appSeq + l.length < 2 ^ 48 →
      stream A B ea eb n a b l = (l.filter (·.2)).map (·.1) := by
  induction l with
  | nil => intro _ _ _ _ _ _ _ _ _; rfl
  | cons x l ih =>
    obtain ⟨d, arrives⟩ := x
    intro a b r lost ha hb hq hr hlen
    simp only [List.length_cons] at hlen
    obtain ⟨h1, h2⟩ := hl (d, arrives) (by simp)
    have ih := ih (fun x hx => hl x (by simp [hx]))
    dsimp only at h1 h2
    obtain ⟨c, a1, a2, g1, g2, g3, g4, g5, g6⟩ := sender_step hA hm.sizes henc ha ht (by omega) d n (by omega)
    unfold stream
    rw [g2, g3]
    dsimp only
    cases arrives with
    | false =>
      simp only [Bool.false_eq_true, if_false]
      rw [ih a2 b r (lost + 1) g4 (g6 ▸ hb) (by omega) hr (by omega)]
      simp
    | true =>
      obtain ⟨hr1, hr2⟩ := hr
      obtain ⟨b1, b2, b3, r', t, k1, k2, k3, k4, k5⟩ := receiver_step hB hfst hm hse hb ha.epoch (seq := a.eng.appSeq)
        (by omega) (by omega) ht g1 h1 n (by omega)
      simp only [if_true]
      rw [k1]
      dsimp only
      rw [k2]
      dsimp only
      rw [k3]
      dsimp only
      rw [ih a2 b3 r' 0 g4 (g6 ▸ k4) (by omega) hr2 (by omega)]
      simp

/-! ### The hypotheses are met -/

theorem matched_demo (l : List Nat) (c r : Bool) : Matched (Demo.env l c r).toEnv (Demo.env l c r).toEnv 1 where
  opens k n a p c h := by
    simp only [Demo.env, Demo.baseEnv, Option.some.injEq] at h ⊢
    subst h
    simp
  sizes := Send13.sizes_demo l c r
  tag _ _ h := h
  mask := rfl

def demoKeys : Keys :=
  { key := [165], iv := List.replicate 12 166, sn := [167], secret := [4, 3, 56, 118, 233] }

def demoClient : Ses CSt := (Demo.clientRun Demo.fullEnv [.poll 2000]).2
def demoServer : Ses SSt := (Demo.serverRun Demo.fullEnv [.poll 2000]).2
def demoEpoch : RecvEpoch := { epoch := 3, keys := demoKeys, expected := 0, replay := Window.ReplayWindow.new }

theorem demo_facts :
    (demoClient.st = .awaitApplicationData ∧ demoClient.events = [] ∧ demoClient.eng.tx = [] ∧ demoClient.eng.rx = [] ∧
      demoClient.eng.suite = some 0x1301 ∧ demoClient.eng.slot 3 = .app ∧ demoClient.eng.appSend = some demoKeys ∧
      demoClient.eng.appEpoch = 3 ∧ demoClient.eng.appSeq = 0 ∧ demoClient.eng.cfg.maxTx = 10) ∧
    (demoServer.st = .awaitApplicationData ∧ demoServer.events = [] ∧ demoServer.queued = [] ∧
      demoServer.pendingKu = false ∧ demoServer.eng.needsKu = false ∧ demoServer.eng.tx = [] ∧ demoServer.eng.rx = [] ∧
      demoServer.eng.closeSeq = none ∧ demoServer.eng.release = true ∧ demoServer.eng.peerEnc = true ∧
      demoServer.eng.suite = some 0x1301 ∧ demoServer.eng.resolveEpoch 3 = 3 ∧ demoServer.eng.appRecv = [demoEpoch] ∧
      demoServer.eng.cfg.maxRx = 30) := by decide +kernel

theorem demo_sends : (createCipher Demo.fullEnv.toEnv 22 3 false [24, 0, 0] demoClient.eng).1 = .ok () := by
  decide +kernel

attribute [local irreducible] demoClient demoServer stream

theorem demo_sender : Sender (A := C13.role) demoClient 0x1301 demoKeys := by
  obtain ⟨⟨h1, h2, h3, h4, h5, h6, h7, h8, h9, h10⟩, _⟩ := demo_facts
  exact ⟨h1, h2, h3, h4, h5, by rw [h8]; exact h6, h7, by omega, by omega⟩

theorem demo_receiver : Receiver (B := S13.role) demoServer 0x1301 demoKeys 3 demoEpoch := by
  obtain ⟨_, h1, h2, h3, h4, h5, h6, h7, h8, h9, h10, h11, h12, h13, h14⟩ := demo_facts
  exact ⟨h1, h2, h3, h4, h5, h6, h7, h8, h9, h10, h11, h12, by rw [h13]; rfl, rfl, .inr rfl, by omega⟩

/-- A client and its server after their handshake: what arrives is delivered. -/
example : stream C13.role S13.role Demo.fullEnv Demo.fullEnv 2000 demoClient demoServer
    [([1, 2], true), ([3], false), ([4, 0], true), (List.replicate 20 7, true)] = [[1, 2], [4, 0], List.replicate 20 7] := by
  obtain ⟨⟨_, _, _, _, _, _, _, h8, h9, _⟩, _⟩ := demo_facts
  have := stream_delivered (C13.roleOk Demo.fullEnv) (S13.roleOk Demo.fullEnv) rfl (matched_demo [29] true true)
    (fun _ _ _ _ => rfl) Recv12.search_ok_demo (suite := 0x1301) (k := demoKeys) rfl 2000
    [([1, 2], true), ([3], false), ([4, 0], true), (List.replicate 20 7, true)] (by decide) demoClient demoServer demoEpoch 0
    demo_sender (by rw [h8]; exact demo_receiver) (by rw [h9]; rfl) (by simp [Runs]) (by rw [h9]; decide)
  exact this

/-- And a single record, a KeyUpdate's worth of handshake bytes. -/
example : ∃ w rx b', recordParse Demo.fullEnv.toEnv w demoServer.eng = (.ok (some rx), b') ∧ rx.rcd.ctype = 22 ∧
    rx.rcd.fragment = [24, 0, 0] ∧ rx.opened = true := by
  obtain ⟨⟨_, _, _, _, h5, h6, h7, h8, h9, h10⟩, _⟩ := demo_facts
  have h : createCipher Demo.fullEnv.toEnv 22 3 false [24, 0, 0] demoClient.eng = (.ok (),
      (createCipher Demo.fullEnv.toEnv 22 3 false [24, 0, 0] demoClient.eng).2) :=
    Prod.ext demo_sends rfl
  obtain ⟨w, _, _, rx, b', g1, g2, g3, _, _, g4, _⟩ := protected_roundtrip (matched_demo [29] true true) (b := demoServer.eng)
    h (by decide) (by decide) (fun suite k hs hk => by
      rw [h6] at hk ⊢
      cases h5.symm.trans hs
      cases h7.symm.trans hk
      have : demoClient.eng.slotSeq .app = 0 := h9
      rw [this]
      exact demo_receiver.ready (by decide) (by decide) (by decide))
  exact ⟨w, rx, b', g1, g2, g3, g4⟩

end Verif.Props.Pair13

import Verif.Lemmas.Tx13
import Verif.Lemmas.Hist12
/-!
# Lives of DTLS 1.3 sessions: what they hand out and what it is made of
-/
namespace Verif.E13
open Verif Wire Window Timer Aead M
open Verif.E12 (Call Ret Output outputs outputs_append)

/-- How a DTLS 1.3 session begins: a client, a client that was auto-sensing, a server. -/
inductive Start (env : PEnv) (cfg : Cfg) : (R : Role) → Ses R.St → Prop where
  | client (now : Nat) : Start env cfg C13.role (C13.start env cfg now)
  | hybrid (random transcript : Bytes) (kx : Nat × Nat) (now : Nat) :
      Start env cfg C13.role (C13.startHybrid env cfg random transcript kx now)
  | server (now : Nat) (auto : Bool) : Start env cfg S13.role (S13.start env cfg now auto)

/-- The transmit side of a new engine. -/
def TxPart.new (env : Env) (cfg : Cfg) (n : Nat) : TxPart :=
  { (Eng.new env cfg true).q with seq0 := n }

theorem Start.roleOk {env : PEnv} {cfg : Cfg} {R : Role} {s0 : Ses R.St} (h : Start env cfg R s0) :
    ∃ k, RoleOk R env k := by
  cases h
  · exact ⟨_, C13.roleOk env⟩
  · exact ⟨_, C13.roleOk env⟩
  · exact ⟨_, S13.roleOk env⟩

theorem Start.q0 {env : PEnv} {cfg : Cfg} {R : Role} {s0 : Ses R.St} (h : Start env cfg R s0) :
    ∃ n ≤ 1, s0.eng.q = TxPart.new env.toEnv cfg n := by
  cases h
  · exact ⟨0, by omega, rfl⟩
  · exact ⟨1, by omega, rfl⟩
  · exact ⟨0, by omega, rfl⟩

theorem Start.saved0 {env : PEnv} {cfg : Cfg} {R : Role} {s0 : Ses R.St} (h : Start env cfg R s0) :
    s0.eng.saved = [] ∧ s0.eng.received = [] ∧ s0.eng.log = [] ∧ s0.queued = [] := by
  cases h <;> exact ⟨rfl, rfl, rfl, rfl⟩

/-- An invariant of the transmit side that does not depend on the keys holds throughout. -/
theorem Start.tx {env : PEnv} {cfg : Cfg} {R : Role} {s0 : Ses R.St} {ok : Bytes → Prop} {Q : TxPart → Prop}
    {G : Cfg → Nat → UInt8 → Nat → Bytes → Prop} (h : Start env cfg R s0) (hi : TxInv env.toEnv ok Q G)
    (hs : ∀ (s : Eng) n, Q s.q → Q { s.q with suite := some n })
    (hk : KeyFrame env.toEnv (Keeps (TxOk Q G))) (hl : SentOk Q)
    (h0 : ∀ n ≤ 1, Q (.new env.toEnv cfg n)) (cs : List Call) (hc : ∀ d, Call.send d ∈ cs → ok d) :
    TxOk Q G (run R env s0 cs).2.eng := by
  obtain ⟨_, hr⟩ := h.roleOk
  obtain ⟨n, hn, hq⟩ := h.q0
  obtain ⟨g1, g2, _, g4⟩ := h.saved0
  refine (run_afr hr (hi.frame hs) hk hi.app hi.api (fun e b n h => pollOutput_tx hl h b n) cs hc s0 ?_).1 ?_
  · unfold QOk; rw [g4]; exact fun _ hd => nomatch hd
  · refine ⟨hq ▸ h0 n hn, ?_, ?_⟩
    · rw [g1]; exact fun _ he => nomatch he
    · rw [g2]; simp

/-! ## Datagrams handed out -/

/-- Datagrams handed out so far, newest first. -/
def sentOf : List Ev → List Bytes
  | [] => []
  | .sent p :: l => p :: sentOf l
  | _ :: l => sentOf l

theorem sentOf_filter (l : List Ev) : sentOf (l.filter Ev.isTx) = sentOf l := by
  induction l with
  | nil => rfl
  | cons e l ih => cases e <;> simp [List.filter_cons, Ev.isTx, sentOf, ih]

theorem mem_sentOf {l : List Ev} {p : Bytes} (h : p ∈ sentOf l) : Ev.sent p ∈ l := by
  induction l with
  | nil => cases h
  | cons e l ih =>
    cases e <;> simp_all [sentOf]
    rcases h with h | h
    · exact .inl h
    · exact .inr (ih h)

/-- Append to the last datagram, or begin another one. -/
def pushTx (tx : List Bytes) (a : Bool) (b : Bytes) : List Bytes :=
  if a then tx.dropLast ++ [tx.getLast?.getD [] ++ b] else tx ++ [b]

theorem emitPlain_q (s : Eng) (c : UInt8) (a : Bool) (f : Bytes) :
    (emitPlain s c a f).q = { s.q with
      tx := pushTx s.tx a (serializePlain13 c 0 s.seq0 (f.length % 65536) f)
      sealedDg := if a then s.sealedDg else false
      seq0 := s.seq0 + 1
      log := .queued none c 0 s.seq0 f :: s.q.log } := by
  unfold emitPlain pushWire pushTx
  cases a <;> simp [Eng.q] <;> rfl

/-- The record as it goes out. -/
def wireOf (env : Env) (suite : Nat) (k : Keys) (ep seq : Nat) (ct : Bytes) : Bytes :=
  maskSeq (snMaskOf env suite k.sn ct) (serializeCipher13 ep seq (ct.length % 65536) ct)

theorem emitCipher_q (env : Env) (s : Eng) (suite : Nat) (sl : Slot) (k : Keys) (c : UInt8) (ep : Nat)
    (a : Bool) (f ct : Bytes) :
    (emitCipher env s suite sl k c ep a f ct).q = { (countSent s sl ep).q with
      tx := pushTx s.tx a (wireOf env suite k ep (s.slotSeq sl) ct)
      sealedDg := if a then s.sealedDg else false
      log := .queued (some k) c ep (s.slotSeq sl) f :: s.q.log } := by
  obtain ⟨a1, a2, a3, a4, a5, h1⟩ := countSent_eq s sl ep
  unfold emitCipher pushWire pushTx wireOf
  rw [h1]
  cases a <;> simp [Eng.q] <;> rfl

theorem countSent_q (s : Eng) (sl : Slot) (ep : Nat) : ∃ a b c d e,
    (countSent s sl ep).q =
      { s.q with hsSeq := a, prevSeq := b, appSeq := c, sendCount := d, needsKu := e } := by
  obtain ⟨a, b, c, d, e, h⟩ := countSent_eq s sl ep
  exact ⟨a, b, c, d, e, by rw [h]; rfl⟩

theorem sealedSt_q (s : Eng) (k : Keys) (ep : Nat) : (sealedSt s k ep).q = { s.q with
    log := .sealed k (nonceXor k.iv (s.slotSeq (s.slot ep))) ep (s.slotSeq (s.slot ep)) :: s.q.log } := by
  simp [sealedSt, Eng.q]; rfl

theorem rotateSend_q (env : Env) (cur new : Keys) (s : Eng) : (rotateSend env cur new s).q = { s.q with
    prevSend := some cur, prevEpoch := s.appEpoch, prevSeq := s.appSeq,
    appSend := some new, appEpoch := s.appEpoch + 1, appSeq := 0, sendCount := 0,
    threshold := Seq13.jitteredThreshold s.cfg.aeadLimit (env.randNat s.tick)
    needsKu := false, log := .rotated s.appEpoch :: s.q.log } := by
  simp [rotateSend, Eng.q]; rfl

/-- Key-independent invariants that only look at configuration, queue and log. -/
theorem txInv_of (env : Env) {ok : Bytes → Prop} {Q : Cfg → List Bytes → List Ev → Prop}
    {G : Cfg → UInt8 → Nat → Bytes → Prop}
    (plain : ∀ (s : Eng) c f, Q s.cfg s.tx (s.log.filter Ev.isTx) → G s.cfg c 0 f → hasRoom s (13 + f.length) →
      s.seq0 < maxSeq →
      Q s.cfg (pushTx s.tx (canAppend s (13 + f.length)) (serializePlain13 c 0 s.seq0 (f.length % 65536) f))
        (.queued none c 0 s.seq0 f :: s.log.filter Ev.isTx))
    (cipher : ∀ (s : Eng) c ep f suite tag k ct, Q s.cfg s.tx (s.log.filter Ev.isTx) → G s.cfg c ep f →
      Seals env s c ep f suite tag k ct → hasRoom s (5 + ct.length) → s.slotSeq (s.slot ep) < maxSeq →
      Q s.cfg (pushTx s.tx (canAppend s (5 + ct.length)) (wireOf env suite k ep (s.slotSeq (s.slot ep)) ct))
        (.queued (some k) c ep (s.slotSeq (s.slot ep)) f :: s.log.filter Ev.isTx))
    (other : ∀ cfg tx l e, (∀ a b c d f, e ≠ .queued a b c d f) → (∀ p, e ≠ .sent p) → Q cfg tx l → Q cfg tx (e :: l))
    (swap : ∀ cfg tx l e x, (∀ a b c d f, x ≠ .queued a b c d f) → (∀ p, x ≠ .sent p) →
      Q cfg tx (e :: l) → Q cfg tx (e :: x :: l))
    (abort : ∀ cfg tx l, Q cfg tx l → Q cfg [] l)
    (hs : ∀ (s : Eng) ep f tag, Q s.cfg s.tx (s.log.filter Ev.isTx) → (ep = 0 ∨ ep = 2 ∧ s.tag env = some tag) →
      f.length ≤ 12 + (s.cfg.mtu - fixedOverhead ep tag) → G s.cfg ctHandshake ep f)
    (small : ∀ (s : Eng) c ep f, Q s.cfg s.tx (s.log.filter Ev.isTx) → f.length ≤ 514 → G s.cfg c ep f)
    (data : ∀ (s : Eng) d ep, Q s.cfg s.tx (s.log.filter Ev.isTx) → ok d → G s.cfg ctAppData ep d) :
    TxInv env ok (fun q => Q q.cfg q.tx q.log) (fun cfg _ c ep f => G cfg c ep f) where
  plain s c f h g hr hm := by
    rw [emitPlain_q]
    exact plain s c f h g hr hm
  sealed s k ep h := by
    rw [sealedSt_q]
    exact other _ _ _ _ (by intros; simp) (by intros; simp) h
  cipher s c ep f suite tag k ct h g _ hs hr hm := by
    have := cipher s c ep f suite tag k ct h g hs hr hm
    rw [emitCipher_q]
    obtain ⟨_, _, _, _, _, hc⟩ := countSent_q (sealedSt s k ep) (s.slot ep) ep
    rw [hc, sealedSt_q]
    exact swap _ _ _ _ _ (by intros; simp) (by intros; simp) this
  sealDg _ h := h
  lost _ h := h
  rotate s cur new suite secret h _ _ _ _ _ _ := by
    rw [rotateSend_q]
    exact other _ _ _ _ (by intros; simp) (by intros; simp) h
  ku s r h := other _ _ _ _ (by intros; simp) (by intros; simp) h
  asked _ h := h
  abort s h := abort _ _ _ h
  hs s ep f tag h := hs s ep f tag h
  kuRec s n r h := by
    refine small s _ _ _ h ?_
    simp [keyUpdateMsg, serializeHs, serializeHsHeader, beBytes_length]
  ackRec s ep f h _ hl := small s _ _ _ h hl
  alertRec s h := small s _ _ _ h (by simp)
  dataRec s d h hd := data s d _ h hd

theorem keyFrame_log {env : Env} {ok : Bytes → Prop} {Q : Cfg → List Bytes → List Ev → Prop}
    {G : Cfg → UInt8 → Nat → Bytes → Prop}
    (hi : TxInv env ok (fun q => Q q.cfg q.tx q.log) (fun cfg _ c ep f => G cfg c ep f)) :
    KeyFrame env (Keeps (TxOk (fun q => Q q.cfg q.tx q.log) (fun cfg _ c ep f => G cfg c ep f))) :=
  keyFrame_of hi.toTxHs (fun _ _ h => h) (fun _ h => h) (fun _ _ h => h) (fun _ h => h) (fun _ _ _ _ _ _ h => h)

/-- An invariant of configuration, queue and log holds throughout. -/
theorem Start.txLog {env : PEnv} {cfg : Cfg} {R : Role} {s0 : Ses R.St} {ok : Bytes → Prop}
    {Q : Cfg → List Bytes → List Ev → Prop} {G : Cfg → UInt8 → Nat → Bytes → Prop} (h : Start env cfg R s0)
    (hi : TxInv env.toEnv ok (fun q => Q q.cfg q.tx q.log) (fun cfg _ c ep f => G cfg c ep f))
    (hl : ∀ cfg p rest l, Q cfg (p :: rest) l → Q cfg rest (.sent p :: l))
    (h0 : Q cfg [] []) (cs : List Call) (hc : ∀ d, Call.send d ∈ cs → ok d) :
    Q (run R env s0 cs).2.eng.cfg (run R env s0 cs).2.eng.tx ((run R env s0 cs).2.eng.log.filter Ev.isTx) := by
  refine (h.tx hi (fun _ _ h => h) (keyFrame_log hi) ?_ (fun _ _ => h0) cs hc).q
  intro s p rest hq ht
  have hq : Q s.cfg s.tx (s.log.filter Ev.isTx) := hq
  rw [ht] at hq
  exact hl _ _ _ _ hq

/-! ## The datagrams among the outputs -/

/-- The datagrams among the outputs, in order. -/
def packets (os : List Output) : List Bytes :=
  os.filterMap fun
    | .eng (.packet p) => some p
    | _ => none

theorem sent_same (env : Env) (L : List Bytes) : TxInv env (fun _ => True) (fun q => sentOf q.log = L)
    (fun _ _ _ _ _ => True) :=
  txInv_of env (Q := fun _ _ l => sentOf l = L) (G := fun _ _ _ _ => True)
    (fun _ _ _ h _ _ _ => h) (fun _ _ _ _ _ _ _ _ h _ _ _ _ => h)
    (fun _ _ l e h1 h2 h => by
      cases e <;> first | exact h | exact absurd rfl (h1 _ _ _ _ _) | exact absurd rfl (h2 _))
    (fun _ _ l e x h1 h2 h => by
      have : sentOf (x :: l) = sentOf l := by
        cases x <;> first | rfl | exact absurd rfl (h1 _ _ _ _ _) | exact absurd rfl (h2 _)
      cases e <;> simp_all [sentOf])
    (fun _ _ _ h => h) (fun _ _ _ _ _ _ _ => trivial) (fun _ _ _ _ _ _ => trivial) (fun _ _ _ _ _ => trivial)

/-- What a poll does to the datagrams handed out. -/
theorem pollOutput_sent (b n : Nat) (e : Eng) :
    (∃ p, (pollOutput b n e).1 = .packet p ∧ sentOf (pollOutput b n e).2.log = p :: sentOf e.log) ∨
    ((∀ p, (pollOutput b n e).1 ≠ .packet p) ∧ sentOf (pollOutput b n e).2.log = sentOf e.log) := by
  have hs : ∀ s : Eng, (scheduleAck n s).log = s.log := by
    intro s
    unfold scheduleAck
    repeat' split
    all_goals rfl
  have hr : ∀ s : Eng, s.log = e.log →
      (∃ p, (pollRest b n s).1 = .packet p ∧ sentOf (pollRest b n s).2.log = p :: sentOf e.log) ∨
      ((∀ p, (pollRest b n s).1 ≠ .packet p) ∧ sentOf (pollRest b n s).2.log = sentOf e.log) := by
    intro s h
    unfold pollRest
    dsimp only
    split
    · split
      · exact .inr ⟨by intro p; simp, by rw [hs, h]⟩
      · exact .inl ⟨_, rfl, by simp [sentOf, hs, h]⟩
    · split
      · exact .inr ⟨by intro p; simp, by simp [hs, h]⟩
      · exact .inr ⟨by intro p; simp, by rw [hs, h]⟩
  unfold pollOutput
  dsimp only
  split
  · split
    · split
      · exact .inr ⟨by intro p; simp, rfl⟩
      · exact .inr ⟨by intro p; simp, rfl⟩
    · exact hr _ rfl
  · exact hr _ rfl

theorem pollM_afr {R : Role} (s : Ses R.St) (n : Nat) (h : s.eng.received.length ≤ 32) :
    (pollM R n s).2.eng.received.length ≤ 32 := by
  have := pollOutput_tx (Q := fun _ => True) (G := fun _ _ _ _ _ => True) (fun _ _ _ _ _ => trivial) (s := s.eng)
    ⟨trivial, fun _ _ => trivial, h⟩ n s.lastNow
  unfold pollM
  split
  · exact h
  · exact this.r

/-- The datagrams handed out by calls are those noted in the log. -/
theorem run_sent {env : PEnv} {R : Role} {keying : R.St → Bool} (ho : RoleOk R env keying) (cs : List Call)
    (s : Ses R.St) (hr : s.eng.received.length ≤ 32) :
    sentOf (run R env s cs).2.eng.log = (packets (outputs (run R env s cs).1)).reverse ++ sentOf s.eng.log ∧
      (run R env s cs).2.eng.received.length ≤ 32 := by
  have hcall : ∀ (s : Ses R.St) (c : Call), s.eng.received.length ≤ 32 →
      sentOf (call R env s c).2.eng.log = (packets (outputs [(call R env s c).1])).reverse ++ sentOf s.eng.log ∧
      (call R env s c).2.eng.received.length ≤ 32 := by
    intro s c hr
    have hi := sent_same env.toEnv (sentOf s.eng.log)
    have h0 : TxOk (fun q => sentOf q.log = sentOf s.eng.log) (fun _ _ _ _ _ => True) s.eng :=
      ⟨sentOf_filter _, fun _ _ => trivial, hr⟩
    have np : (∀ n, c ≠ .poll n) → TxOk (fun q => sentOf q.log = sentOf s.eng.log) (fun _ _ _ _ _ => True)
        (call R env s c).2.eng := by
      intro hn
      exact (call_afr (ok := fun _ => True) ho (hi.frame (fun _ _ h => h))
        (keyFrame_log hi (Q := fun _ _ l => sentOf l = sentOf s.eng.log) (G := fun _ _ _ _ => True)) hi.app hi.api s
        (fun _ _ => trivial) c (fun n hc => absurd hc (hn n)) (fun _ _ => trivial)).1 h0
    have done : (∀ n, c ≠ .poll n) → packets (outputs [(call R env s c).1]) = [] →
        sentOf (call R env s c).2.eng.log = (packets (outputs [(call R env s c).1])).reverse ++ sentOf s.eng.log ∧
        (call R env s c).2.eng.received.length ≤ 32 := by
      intro hn he
      have h := np hn
      rw [he]
      exact ⟨(sentOf_filter _).symm.trans h.q, h.r⟩
    cases c with
    | packet p => exact done (by intros; simp) rfl
    | timeout n => exact done (by intros; simp) rfl
    | send d => exact done (by intros; simp) rfl
    | close => exact done (by intros; simp) rfl
    | poll n =>
      show sentOf (pollM R n s).2.eng.log = (packets [(pollM R n s).1]).reverse ++ _ ∧ _
      refine ⟨?_, (pollM_afr s n hr)⟩
      unfold pollM
      split
      · rename_i e rest _
        have : packets [eventOutput e n s.peerCerts] = [] := by
          unfold eventOutput packets
          cases e with
          | peerCert =>
            dsimp only
            split
            · rfl
            · split <;> rfl
          | _ => rfl
        simp [this]
      · dsimp only
        rcases pollOutput_sent n s.lastNow s.eng with ⟨p, h1, h2⟩ | ⟨h1, h2⟩
        · rw [h1, h2]; simp [packets]
        · rw [h2]
          have : packets [.eng (pollOutput n s.lastNow s.eng).1] = [] := by
            unfold packets
            cases ho : (pollOutput n s.lastNow s.eng).1 <;> simp
            exact absurd ho (h1 _)
          rw [this]; simp
  induction cs generalizing s with
  | nil => exact ⟨by simp [run, outputs, packets], hr⟩
  | cons c cs ih =>
    have h1 := hcall s c hr
    unfold run
    dsimp only
    split
    · exact h1
    · have h2 := ih (call R env s c).2 h1.2
      refine ⟨?_, h2.2⟩
      have ha := outputs_append [(call R env s c).1] (run R env (call R env s c).2 cs).1
      simp only [List.singleton_append] at ha
      rw [h2.1, h1.1, ha]
      simp [packets, List.filterMap_append]

end Verif.E13

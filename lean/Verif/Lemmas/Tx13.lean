import Verif.Lemmas.Session13
import Verif.Lemmas.Bytes
/-!
# Invariants of the DTLS 1.3 transmit side
-/
namespace Verif.E13
open Verif Wire Window Timer Aead M

/-- Ghost events of the transmit side. -/
def Ev.isTx : Ev → Bool
  | .sealed .. | .queued .. | .sent .. | .rotated .. | .keyUpdate .. => true
  | _ => false

/-- What the transmit side of an engine consists of, apart from the saved records. -/
structure TxPart where
  cfg : Cfg
  seq0 : Nat
  tx : List Bytes
  suite : Option Nat
  hsSend : Option Keys
  hsSeq : Nat
  appEpoch : Nat
  appSeq : Nat
  appSend : Option Keys
  prevSend : Option Keys
  prevEpoch : Nat
  prevSeq : Nat
  sealedDg : Bool
  sendCount : Nat
  threshold : Nat
  needsKu : Bool
  kuInFlight : Bool
  log : List Ev

def Eng.q (s : Eng) : TxPart :=
  { cfg := s.cfg, seq0 := s.seq0, tx := s.tx, suite := s.suite, hsSend := s.hsSend, hsSeq := s.hsSeq
    appEpoch := s.appEpoch, appSeq := s.appSeq, appSend := s.appSend, prevSend := s.prevSend
    prevEpoch := s.prevEpoch, prevSeq := s.prevSeq, sealedDg := s.sealedDg, sendCount := s.sendCount
    threshold := s.threshold, needsKu := s.needsKu, kuInFlight := s.kuInFlight
    log := s.log.filter Ev.isTx }

/-- The body of an ACK is not large. -/
theorem ackBody_length (l : List (Nat × Nat)) (h : l.length ≤ 32) : (ackBody l).length ≤ 514 := by
  have : (l.flatMap fun n : Nat × Nat => beBytes 8 n.1 ++ beBytes 8 n.2).length = 16 * l.length := by
    clear h
    induction l with
    | nil => rfl
    | cons a l ih => simp [List.flatMap_cons, beBytes_length, ih]; omega
  unfold ackBody
  simp only [List.length_append, beBytes_length, this]
  omega

/-- `Q` holds of the transmit side and `G` of every record that is sent or saved for sending again, both
through what an engine does unasked: retransmissions, ACKs and the rotation of its keys. -/
structure TxCore (env : Env) (Q : TxPart → Prop) (G : Cfg → Nat → UInt8 → Nat → Bytes → Prop) : Prop where
  plain : ∀ (s : Eng) c f, Q s.q → G s.cfg s.appEpoch c 0 f → hasRoom s (13 + f.length) → s.seq0 < maxSeq →
    Q (emitPlain s c (canAppend s (13 + f.length)) f).q
  sealed : ∀ (s : Eng) k ep, Q s.q → Q (sealedSt s k ep).q
  cipher : ∀ (s : Eng) c ep f suite tag k ct, Q s.q → G s.cfg s.appEpoch c ep f → (ep ≠ 0 ∨ ep = s.appEpoch) →
    Seals env s c ep f suite tag k ct →
    hasRoom s (5 + ct.length) → s.slotSeq (s.slot ep) < maxSeq →
    Q (emitCipher env (sealedSt s k ep) suite (s.slot ep) k c ep (canAppend s (5 + ct.length)) f ct).q
  sealDg : ∀ (s : Eng), Q s.q → Q { s.q with sealedDg := true }
  lost : ∀ (s : Eng), Q s.q → Q { s.q with appSend := none }
  rotate : ∀ (s : Eng) cur new suite secret, Q s.q → s.appSend = some cur → s.kuInFlight = true →
    s.suite = some suite → env.nextSecret suite cur.secret = some secret →
    env.epochKeys suite secret = some new → s.appEpoch < 65535 →
    Q { (rotateSend env cur new s).q with prevSend := none, kuInFlight := false }
  ackRec : ∀ (s : Eng) ep f, Q s.q → (ep = 2 ∨ ep = s.appEpoch ∧ s.appSend.isSome) → f.length ≤ 514 →
    G s.cfg s.appEpoch ctAck ep f

/-- The same, also through what is done on behalf of the handshake and of KeyUpdates. -/
structure TxHs (env : Env) (Q : TxPart → Prop)
    (G : Cfg → Nat → UInt8 → Nat → Bytes → Prop) : Prop extends TxCore env Q G where
  asked : ∀ (s : Eng), Q s.q → Q { s.q with needsKu := false }
  abort : ∀ (s : Eng), Q s.q → Q { s.q with tx := [] }
  hs : ∀ (s : Eng) ep f tag, Q s.q → (ep = 0 ∨ ep = 2 ∧ s.tag env = some tag) →
    f.length ≤ 12 + (s.cfg.mtu - fixedOverhead ep tag) → G s.cfg s.appEpoch ctHandshake ep f
  kuRec : ∀ (s : Eng) n r, Q s.q → G s.cfg s.appEpoch ctHandshake s.appEpoch (keyUpdateMsg n r)

/-- `Q` holds of the transmit side and `G` of every record that is sent or saved for sending again, both
through everything the engine does except for new suites, keys and HelloRetryRequests. `ok` is what is
known of the payloads. -/
structure TxInv (env : Env) (ok : Bytes → Prop) (Q : TxPart → Prop)
    (G : Cfg → Nat → UInt8 → Nat → Bytes → Prop) : Prop extends TxHs env Q G where
  ku : ∀ (s : Eng) r, Q s.q → Q { s.q with kuInFlight := true, log := .keyUpdate s.appEpoch r :: s.log.filter Ev.isTx }
  alertRec : ∀ (s : Eng), Q s.q → G s.cfg s.appEpoch ctAlert s.appEpoch [1, 0]
  dataRec : ∀ (s : Eng) d, Q s.q → ok d → G s.cfg s.appEpoch ctAppData s.appEpoch d

/-- `Q` survives handing out a datagram. -/
def SentOk (Q : TxPart → Prop) : Prop := ∀ (s : Eng) p rest, Q s.q → s.tx = p :: rest →
  Q { s.q with tx := rest, log := .sent p :: s.log.filter Ev.isTx }

/-- The invariant of an engine. -/
structure TxOk (Q : TxPart → Prop) (G : Cfg → Nat → UInt8 → Nat → Bytes → Prop) (s : Eng) : Prop where
  q : Q s.q
  g : ∀ e ∈ s.saved, G s.cfg s.appEpoch e.ctype e.epoch e.fragment
  r : s.received.length ≤ 32

section
variable {env : Env} {ok : Bytes → Prop} {Q : TxPart → Prop} {G : Cfg → Nat → UInt8 → Nat → Bytes → Prop}

/-- Nothing on the transmit side changed. -/
theorem TxOk.of {s s' : Eng} (h : TxOk Q G s) (h1 : s'.q = s.q) (h2 : ∀ e ∈ s'.saved, e ∈ s.saved)
    (h3 : s'.received.length ≤ 32) : TxOk Q G s' := by
  have hc : s'.cfg = s.cfg := congrArg TxPart.cfg h1
  have ha : s'.appEpoch = s.appEpoch := congrArg TxPart.appEpoch h1
  exact ⟨h1 ▸ h.q, fun e he => by rw [hc, ha]; exact h.g e (h2 e he), h3⟩

theorem TxOk.rx {s s' : Eng} (h : TxOk Q G s) (h1 : s'.q = s.q) (h2 : s'.saved = s.saved)
    (h3 : s'.received = s.received) : TxOk Q G s' :=
  h.of h1 (fun _ he => h2 ▸ he) (h3 ▸ h.r)

theorem saved_ok {s : Eng} (h : TxOk Q G s) (sv : Bool) (en : Entry)
    (hg : G s.cfg s.appEpoch en.ctype en.epoch en.fragment) : TxOk Q G (savedAs s sv en) := by
  refine ⟨h.q, ?_, h.r⟩
  intro e he
  unfold savedAs at he
  dsimp only at he
  split at he
  · rcases List.mem_append.mp he with h1 | h1
    · exact h.g e h1
    · rw [List.mem_singleton.mp h1]; exact hg
  · exact h.g e he

theorem createPlain_tx (hi : TxCore env Q G) {s : Eng} (h : TxOk Q G s) (c sv f)
    (hg : G s.cfg s.appEpoch c 0 f) : TxOk Q G (createPlain c sv f s).2 := by
  have h1 := saved_ok h sv (plainEntry s c f) hg
  refine createPlain_ind (motive := fun r => TxOk Q G r.2) c sv f s (fun _ _ => h) (fun _ _ _ => h1) ?_
  intro _ hr hm
  refine ⟨hi.plain (savedAs s sv (plainEntry s c f)) c f h1.q hg hr hm, ?_, ?_⟩
  · unfold emitPlain pushWire
    split
    · exact h1.g
    · exact h1.g
  · unfold emitPlain pushWire
    split
    · exact h1.r
    · exact h1.r

theorem emitCipher_frame (env : Env) (s : Eng) (suite sl k c ep a f ct) :
    (emitCipher env s suite sl k c ep a f ct).cfg = s.cfg ∧
    (emitCipher env s suite sl k c ep a f ct).appEpoch = s.appEpoch ∧
    (emitCipher env s suite sl k c ep a f ct).saved = s.saved ∧
    (emitCipher env s suite sl k c ep a f ct).received = s.received := by
  obtain ⟨a1, a2, a3, a4, a5, h1⟩ := countSent_eq s sl ep
  unfold emitCipher
  dsimp only
  rw [h1]
  unfold pushWire
  split <;> exact ⟨rfl, rfl, rfl, rfl⟩

theorem createCipher_tx (hi : TxCore env Q G) {s : Eng} (h : TxOk Q G s) (c ep sv f)
    (hg : G s.cfg s.appEpoch c ep f) (hep : ep ≠ 0 ∨ ep = s.appEpoch) :
    TxOk Q G (createCipher env c ep sv f s).2 := by
  have h1 := saved_ok h sv (entryOf s c ep f) hg
  refine createCipher_ind (motive := fun r => TxOk Q G r.2) env c ep sv f s (fun _ _ => h)
    (fun _ _ _ => h1) ?_ ?_
  · intro suite tag k ct flt hs _ _
    exact ⟨hi.sealed _ k ep h1.q, h1.g, h1.r⟩
  · intro suite tag k ct hs _ hr hm
    obtain ⟨e1, e2, e3, e4⟩ := emitCipher_frame env (sealedSt (savedAs s sv (entryOf s c ep f)) k ep) suite
      (s.slot ep) k c ep (canAppend s (5 + ct.length)) f ct
    refine ⟨hi.cipher (savedAs s sv (entryOf s c ep f)) c ep f suite tag k ct h1.q hg hep
      ⟨hs.hsuite, hs.htag, hs.keys, hs.enc⟩ hr hm, ?_, ?_⟩
    · rw [e3, e1, e2]; exact h1.g
    · rw [e4]; exact h1.r

theorem createPlain_frame (c sv f s) :
    (createPlain c sv f s).2.cfg = s.cfg ∧ (createPlain c sv f s).2.appEpoch = s.appEpoch := by
  refine createPlain_ind (motive := fun r => r.2.cfg = s.cfg ∧ r.2.appEpoch = s.appEpoch) c sv f s
    (fun _ _ => ⟨rfl, rfl⟩) (fun _ _ _ => ⟨rfl, rfl⟩) (fun _ _ _ => ?_)
  unfold emitPlain pushWire
  split <;> exact ⟨rfl, rfl⟩

theorem createCipher_cfg (c ep sv f s) : (createCipher env c ep sv f s).2.cfg = s.cfg := by
  obtain ⟨_, _, _, _, _, _, _, _, _, h⟩ := createCipher_shape env c ep sv f s
  rw [h]

theorem resendEntry_tx (hi : TxCore env Q G) {s : Eng} (h : TxOk Q G s) (e : Entry)
    (hg : G s.cfg s.appEpoch e.ctype e.epoch e.fragment) :
    wp (resendEntry env e) s (fun a t => (TxOk Q G t ∧ t.cfg = s.cfg ∧ t.appEpoch = s.appEpoch) ∧
      a.ctype = e.ctype ∧ a.epoch = e.epoch ∧ a.fragment = e.fragment) (fun _ t => TxOk Q G t) := by
  unfold resendEntry wp
  split
  · rename_i he
    split at he
    · rename_i h0
      rw [h0] at hg
      have h1 := createPlain_tx hi h e.ctype false e.fragment hg
      have h2 := createPlain_frame e.ctype false e.fragment s
      obtain ⟨_, _, g1, g2⟩ := bind_ok he
      cases g2
      rw [g1] at h1 h2
      exact ⟨⟨h1, h2⟩, rfl, rfl, rfl⟩
    · have h1 := createCipher_tx hi h e.ctype e.epoch false e.fragment hg (.inl ‹_›)
      have h2 := createCipher_cfg (env := env) e.ctype e.epoch false e.fragment s
      have h3 := createCipher_appEpoch env e.ctype e.epoch false e.fragment s
      obtain ⟨_, _, g1, g2⟩ := bind_ok he
      cases g2
      rw [g1] at h1 h2 h3
      exact ⟨⟨h1, h2, h3⟩, rfl, rfl, rfl⟩
  · rename_i flt u he
    have he := congrArg Prod.snd he
    split at he
    · rename_i h0
      rw [h0] at hg
      have h1 := createPlain_tx hi h e.ctype false e.fragment hg
      rw [bind_snd] at he
      have he' : (createPlain e.ctype false e.fragment s).2 = u := by
        split at he <;> exact he
      exact he' ▸ h1
    · have h1 := createCipher_tx hi h e.ctype e.epoch false e.fragment hg (.inl ‹_›)
      rw [bind_snd] at he
      have he' : (createCipher env e.ctype e.epoch false e.fragment s).2 = u := by
        split at he <;> exact he
      exact he' ▸ h1

theorem resendLoop_tx (hi : TxCore env Q G) (l : List Entry) {s : Eng} (h : TxOk Q G s)
    (hg : ∀ e ∈ l, G s.cfg s.appEpoch e.ctype e.epoch e.fragment) :
    wp (resendLoop env l) s (fun es t => TxOk Q G t ∧ t.cfg = s.cfg ∧ t.appEpoch = s.appEpoch ∧
      ∀ e ∈ es, G s.cfg s.appEpoch e.ctype e.epoch e.fragment) (fun _ t => TxOk Q G t) := by
  induction l generalizing s with
  | nil => exact ⟨h, rfl, rfl, (fun _ he => nomatch he)⟩
  | cons e rest ih =>
    unfold resendLoop
    split
    · rw [wp_bind]
      refine wp_mono (ih h fun x hx => hg x (by simp [hx])) ?_ (fun _ _ h => h)
      rintro es t ⟨h1, h2, h3, h4⟩
      refine ⟨h1, h2, h3, ?_⟩
      intro x hx
      rcases List.mem_cons.mp hx with rfl | hx
      · exact hg _ (by simp)
      · exact h4 x hx
    · rw [wp_bind]
      refine wp_mono (resendEntry_tx hi h e (hg e (by simp))) ?_ (fun _ _ h => h)
      rintro a u ⟨⟨h1, h2, h3⟩, k1, k2, k3⟩
      rw [wp_bind]
      refine wp_mono (ih h1 fun x hx => ?_) ?_ (fun _ _ h => h)
      · rw [h2, h3]; exact hg x (by simp [hx])
      · rintro es t ⟨g1, g2, g3, g4⟩
        refine ⟨g1, g2.trans h2, g3.trans h3, ?_⟩
        intro x hx
        rcases List.mem_cons.mp hx with rfl | hx
        · rw [k1, k2, k3]; exact hg e (by simp)
        · have := g4 x hx
          rw [h2, h3] at this
          exact this

theorem flightResend_tx (hi : TxCore env Q G) {s : Eng} (h : TxOk Q G s) :
    TxOk Q G (flightResend env s).2 := by
  have h0 : TxOk Q G { s with saved := [], sealedDg := true } :=
    ⟨hi.sealDg s h.q, (fun _ he => nomatch he), h.r⟩
  refine of_wp (m := flightResend env) (TxOk Q G) ?_
  show wp (M.bind (resendLoop env s.saved) fun es => M.modify fun t => { t with saved := es })
    { s with saved := [], sealedDg := true } _ _
  rw [wp_bind]
  refine wp_mono (resendLoop_tx hi s.saved h0 h.g) ?_ (fun _ _ h => h)
  rintro es t ⟨h1, h2, h3, h4⟩
  exact ⟨h1.q, by rw [← h2, ← h3] at h4; exact h4, h1.r⟩

/-! ## Handshake messages and ACKs -/

theorem chunkLen_le (s : Eng) (fixed total off : Nat) : chunkLen s fixed total off ≤ s.cfg.mtu - fixed := by
  unfold chunkLen
  dsimp only
  split
  · omega
  · split <;> omega

theorem fragmentBytes_length (t : UInt8) (seq : Nat) (body : Bytes) (off chunk : Nat) :
    (fragmentBytes t seq body off chunk).length ≤ 12 + chunk := by
  unfold fragmentBytes serializeHs
  simp [serializeHsHeader, beBytes_length]
  omega

theorem createHsRecord_tx (hi : TxCore env Q G) {s : Eng} (h : TxOk Q G s) {ep : Nat} (f : Bytes)
    (hg : G s.cfg s.appEpoch ctHandshake ep f) :
    TxOk Q G (createHsRecord env ep f s).2 ∧ (createHsRecord env ep f s).2.cfg = s.cfg ∧
      (createHsRecord env ep f s).2.suite = s.suite := by
  unfold createHsRecord
  split
  · rename_i h0
    rw [h0] at hg
    refine ⟨createPlain_tx hi h _ _ _ hg, (createPlain_frame _ _ _ _).1, ?_⟩
    refine createPlain_ind (motive := fun r => r.2.suite = s.suite) _ _ f s
      (fun _ _ => rfl) (fun _ _ _ => rfl) (fun _ _ _ => ?_)
    unfold emitPlain pushWire
    split <;> rfl
  · refine ⟨createCipher_tx hi h _ _ _ _ hg (.inl ‹_›), createCipher_cfg .., ?_⟩
    obtain ⟨_, _, _, _, _, _, _, _, _, h⟩ := createCipher_shape env ctHandshake ep true f s
    rw [h]

theorem fragmentLoop_tx (hi : TxCore env Q G) (t : UInt8) (seq ep tag : Nat) (body : Bytes) (n off : Nat)
    {s : Eng} (h : TxOk Q G s) (he : ep = 0 ∨ ep = 2 ∧ s.tag env = some tag)
    (hg : ∀ (u : Eng) off, Q u.q → (ep = 0 ∨ ep = 2 ∧ u.tag env = some tag) → G u.cfg u.appEpoch ctHandshake ep
      (fragmentBytes t seq body off (chunkLen u (fixedOverhead ep tag) body.length off))) :
    TxOk Q G (fragmentLoop env t seq ep (fixedOverhead ep tag) body n off s).2 := by
  induction n generalizing s off with
  | zero => exact h
  | succ n ih =>
    unfold fragmentLoop
    split
    · refine of_wp (TxOk Q G) ?_
      rw [wp_bind, wp_get]
      dsimp only
      rw [wp_bind]
      obtain ⟨h1, h2, h3⟩ := createHsRecord_tx hi h _ (hg s off h.q he)
      have key : ∀ u : Eng, TxOk Q G u → u.suite = s.suite → TxOk Q G
          ((if body.length = 0 then M.pure () else fragmentLoop env t seq ep (fixedOverhead ep tag) body n
            (off + chunkLen s (fixedOverhead ep tag) body.length off) : E Unit) u).2 := by
        intro u hu hus
        split
        · exact hu
        · refine ih _ hu ?_
          rcases he with he | he
          · exact .inl he
          · refine .inr ⟨he.1, ?_⟩
            have := he.2
            unfold Eng.tag at this ⊢
            rw [hus]
            exact this
      refine wp_of ?_ ?_
      · intro a u hu
        rw [hu] at h1 h3
        exact to_wp (key u h1 h3)
      · intro a u hu
        rw [hu] at h1
        exact h1
    · exact h

theorem createHandshake_core (hi : TxCore env Q G) {s : Eng} (h : TxOk Q G s) (t body)
    (hg : ∀ (u : Eng) off tag seq ep, Q u.q → ep = msgEpoch t → (ep = 0 ∨ ep = 2 ∧ u.tag env = some tag) →
      G u.cfg u.appEpoch ctHandshake ep
        (fragmentBytes t seq body off (chunkLen u (fixedOverhead ep tag) body.length off))) :
    TxOk Q G (createHandshake env t body s).2 := by
  unfold createHandshake
  dsimp only
  split
  · exact h.rx rfl rfl rfl
  · split
    · exact h.rx rfl rfl rfl
    · rename_i tag htag
      refine fragmentLoop_tx hi _ _ _ _ _ _ _ (h.rx rfl rfl rfl) ?_
        (fun u off hu he => hg u off tag _ _ hu rfl he)
      unfold msgEpoch at htag ⊢
      split
      · exact .inl rfl
      · rename_i hc
        rw [if_neg hc] at htag
        exact .inr ⟨rfl, htag⟩

theorem createHandshake_tx (hi : TxHs env Q G) {s : Eng} (h : TxOk Q G s) (t body) :
    TxOk Q G (createHandshake env t body s).2 := by
  refine createHandshake_core hi.toTxCore h t body fun u off tag seq ep hu _ he => hi.hs u ep _ tag hu he ?_
  have h1 := fragmentBytes_length t seq body off (chunkLen u (fixedOverhead ep tag) body.length off)
  have h2 := chunkLen_le u (fixedOverhead ep tag) body.length off
  omega

theorem sendAckInner_tx (hi : TxCore env Q G) {s : Eng} (h : TxOk Q G s) (sv) :
    TxOk Q G (sendAckInner env sv s).2 := by
  unfold sendAckInner
  split
  · exact h
  · have h1 : TxOk Q G { s with received := [] } := ⟨h.q, h.g, by simp⟩
    refine createCipher_tx hi h1 _ _ _ _ (hi.ackRec _ _ _ h1.q ?_ (ackBody_length _ h.r)) ?_
    · split
      · rename_i hs; exact .inr ⟨rfl, hs⟩
      · exact .inl rfl
    · split
      · exact .inr rfl
      · exact .inl (by omega)

theorem sendAck_tx (hi : TxCore env Q G) {s : Eng} (h : TxOk Q G s) : TxOk Q G (sendAck env s).2 :=
  sendAckInner_tx hi h _

theorem TxOk.forget {s : Eng} (h : TxOk Q G s) : TxOk Q G { s with saved := [] } :=
  ⟨h.q, (fun _ he => nomatch he), h.r⟩

theorem sendAckRetransmittable_tx (hi : TxCore env Q G) {s : Eng} (h : TxOk Q G s) :
    TxOk Q G (sendAckRetransmittable env s).2 := by
  unfold sendAckRetransmittable
  refine sendAckInner_tx hi ?_ _
  split
  · exact h
  · exact h.forget

theorem flushAck_tx (hi : TxCore env Q G) {s : Eng} (h : TxOk Q G s) (now) :
    TxOk Q G (flushAck env now s).2 := by
  unfold flushAck
  split
  · exact h
  · split
    · exact h
    · dsimp only
      have h1 : TxOk Q G { s with ackDeadline := none } := h.rx rfl rfl rfl
      split
      · exact h1
      · split
        · exact h1
        · refine createCipher_tx hi h1 _ _ _ _ (hi.ackRec _ _ _ h1.q (.inl rfl) (ackBody_length _ ?_)) (.inl (by omega))
          unfold bufferedNumbers
          simp
          omega

/-! ## Keys and ACK processing -/

/-- What a record that went out leaves in the log. -/
theorem createCipher_log (c : UInt8) (ep : Nat) (sv : Bool) (f : Bytes) (s : Eng) (h : (createCipher env c ep sv f s).1 = .ok ()) :
    (createCipher env c ep sv f s).2.kuInFlight = s.kuInFlight ∧
    ∃ k n a b c' d, (createCipher env c ep sv f s).2.log = .queued (some k) c ep n f :: .sealed a b c' d :: s.log := by
  revert h
  refine createCipher_ind (motive := fun r => r.1 = .ok () → r.2.kuInFlight = s.kuInFlight ∧
    ∃ k n a b c' d, r.2.log = .queued (some k) c ep n f :: .sealed a b c' d :: s.log) env c ep sv f s
    (fun _ _ h => nomatch h) (fun _ _ _ h => nomatch h) (fun _ _ _ _ _ _ _ _ h => nomatch h) ?_
  intro suite tag k ct _ _ _ _ _
  unfold emitCipher
  dsimp only
  obtain ⟨a1, a2, a3, a4, a5, h1⟩ := countSent_eq (sealedSt (savedAs s sv (entryOf s c ep f)) k ep) (s.slot ep) ep
  rw [h1]
  unfold pushWire
  split <;> exact ⟨rfl, _, _, _, _, _, _, rfl⟩

theorem createKeyUpdate_tx (hi : TxHs env Q G) {s : Eng} (h : TxOk Q G s) (r)
    (hk : ∀ t : Eng, Q t.q → t.appEpoch = s.appEpoch → t.kuInFlight = s.kuInFlight →
      (∃ k n f a b c d, t.q.log = .queued (some k) ctHandshake s.appEpoch n f :: .sealed a b c d :: s.q.log) →
      Q { t.q with kuInFlight := true, log := .keyUpdate t.appEpoch r :: t.log.filter Ev.isTx }) :
    TxOk Q G (createKeyUpdate env r s).2 := by
  have h0 : TxOk Q G (flightBegin env s) := ⟨h.q, (fun _ he => nomatch he), h.r⟩
  have q0 : (flightBegin env s).q = s.q := rfl
  refine of_wp (TxOk Q G) ?_
  unfold createKeyUpdate
  rw [wp_bind, wp_modify, wp_bind, wp_get]
  generalize flightBegin env s = u at h0 q0
  split
  · exact h0
  · rw [wp_bind, wp_modify, wp_bind]
    have h1 : TxOk Q G { u with nextSeq := u.nextSeq + 1 } := h0.rx rfl rfl rfl
    have h2 := createCipher_tx hi.toTxCore h1 ctHandshake u.appEpoch true (keyUpdateMsg u.nextSeq r)
      (hi.kuRec _ _ _ h1.q) (.inr rfl)
    have h3 := createCipher_appEpoch env ctHandshake u.appEpoch true (keyUpdateMsg u.nextSeq r)
      { u with nextSeq := u.nextSeq + 1 }
    refine wp_of ?_ ?_
    · intro a t ht
      have h4 := createCipher_log (env := env) ctHandshake u.appEpoch true (keyUpdateMsg u.nextSeq r)
        { u with nextSeq := u.nextSeq + 1 } (by rw [ht])
      rw [ht] at h2 h3 h4
      rw [wp_modify]
      obtain ⟨h5, k, n, x, y, z, w, h4⟩ := h4
      have e1 : u.appEpoch = s.appEpoch := congrArg TxPart.appEpoch q0
      have e2 : u.kuInFlight = s.kuInFlight := congrArg TxPart.kuInFlight q0
      have e3 : u.q.log = s.q.log := congrArg TxPart.log q0
      have := hk t h2.q (h3.trans e1) (h5.trans e2) ⟨k, n, keyUpdateMsg u.nextSeq r, x, y, z, w, by
        show t.log.filter Ev.isTx = _
        have h4 : t.log = .queued (some k) ctHandshake u.appEpoch n (keyUpdateMsg u.nextSeq r) :: .sealed x y z w :: u.log := h4
        rw [h4, ← e1, ← e3]
        rfl⟩
      rw [h3] at this
      exact ⟨this, h2.g, h2.r⟩
    · intro f t ht
      rw [ht] at h2
      exact h2

theorem wp_deriveEpochKeys {s : Eng} {x : Bytes} {Q : Keys → Eng → Prop} {F : Fault → Eng → Prop}
    (h1 : ∀ suite k, s.suite = some suite → env.epochKeys suite x = some k → Q k s)
    (h2 : F (.fatal .crypto) s) (h3 : F .panic s) : wp (deriveEpochKeys env x) s Q F := by
  cases hs : s.suite with
  | none => simp only [wp, deriveEpochKeys, hs]; exact h3
  | some suite =>
    cases ht : s.tag env with
    | none => simp only [wp, deriveEpochKeys, hs, ht]; exact h3
    | some tg =>
      cases hk : env.epochKeys suite x with
      | none => simp only [wp, deriveEpochKeys, hs, ht, hk]; exact h2
      | some k => simp only [wp, deriveEpochKeys, hs, ht, hk]; exact h1 suite k hs hk

theorem wp_deriveNextSecret {s : Eng} {x : Bytes} {Q : Bytes → Eng → Prop} {F : Fault → Eng → Prop}
    (h1 : ∀ suite k, s.suite = some suite → env.nextSecret suite x = some k → Q k s)
    (h2 : F (.fatal .crypto) s) (h3 : F .panic s) : wp (deriveNextSecret env x) s Q F := by
  cases hs : s.suite with
  | none => simp only [wp, deriveNextSecret, hs]; exact h3
  | some suite =>
    cases hk : env.nextSecret suite x with
    | none => simp only [wp, deriveNextSecret, hs, hk]; exact h2
    | some k => simp only [wp, deriveNextSecret, hs, hk]; exact h1 suite k hs hk

theorem wp_updateSendKeys {s : Eng} {Q : Unit → Eng → Prop} {F : Fault → Eng → Prop}
    (h0 : s.appSend = none → F (.fatal .invalidState) s)
    (h1 : ∀ flt, (flt = .panic ∨ flt = .fatal .crypto) → F flt { s with appSend := none })
    (h2 : ∀ cur suite secret new, s.appSend = some cur → s.suite = some suite →
      env.nextSecret suite cur.secret = some secret → env.epochKeys suite secret = some new →
      s.appEpoch < 65535 → Q () (rotateSend env cur new s)) : wp (updateSendKeys env) s Q F := by
  cases hc : s.appSend with
  | none =>
    simp only [wp, updateSendKeys, hc]
    exact h0 hc
  | some cur =>
    have he : updateSendKeys env s = M.bind (deriveNextSecret env cur.secret)
      (fun secret => M.bind (deriveEpochKeys env secret) fun new =>
        M.bind M.get fun t =>
          if t.appEpoch ≥ 65535 then M.panic else M.modify (rotateSend env cur new))
      { s with appSend := none } := by
      simp only [updateSendKeys, hc]
    suffices h : wp (M.bind (deriveNextSecret env cur.secret)
      (fun secret => M.bind (deriveEpochKeys env secret) fun new =>
        M.bind M.get fun t =>
          if t.appEpoch ≥ 65535 then M.panic else M.modify (rotateSend env cur new)))
      { s with appSend := none } Q F by
      unfold wp at h ⊢; rw [he]; exact h
    rw [wp_bind]
    refine wp_deriveNextSecret ?_ (h1 _ (.inr rfl)) (h1 _ (.inl rfl))
    intro suite secret hs hn
    rw [wp_bind]
    refine wp_deriveEpochKeys ?_ (h1 _ (.inr rfl)) (h1 _ (.inl rfl))
    intro suite' new hs' hk
    have : suite' = suite := by
      have : some suite' = some suite := hs'.symm.trans hs
      injection this
    subst this
    rw [wp_bind, wp_get]
    split
    · exact h1 _ (.inl rfl)
    · rename_i hlt
      have hlt : ¬ s.appEpoch ≥ 65535 := hlt
      exact h2 cur suite' secret new hc hs hn hk (by omega)

theorem ackHandshakeFlight_tx {s : Eng} (h : TxOk Q G s) : TxOk Q G (ackHandshakeFlight s) := by
  unfold ackHandshakeFlight
  split
  · exact ⟨h.q, (fun _ he => nomatch he), h.r⟩
  · exact h

theorem ackKeyUpdate_tx (hi : TxCore env Q G) {s : Eng} (h : TxOk Q G s) :
    TxOk Q G (ackKeyUpdate env s).2 := by
  unfold ackKeyUpdate
  split
  · rename_i hk
    refine of_wp (m := M.bind _ _) (TxOk Q G) ?_
    rw [wp_bind]
    have hlost : TxOk Q G { s with appSend := none } := ⟨hi.lost s h.q, h.g, h.r⟩
    refine wp_updateSendKeys (fun _ => h) (fun _ _ => hlost) ?_
    intro cur suite secret new a1 a2 a3 a4 a5
    refine ⟨hi.rotate s cur new suite secret h.q a1 ?_ a2 a3 a4 a5, (fun _ he => nomatch he), h.r⟩
    cases hku : s.kuInFlight
    · rw [hku] at hk; simp at hk
    · rfl
  · exact h

theorem processAck_tx (hi : TxCore env Q G) {s : Eng} (h : TxOk Q G s) (d) :
    TxOk Q G (processAck env d s).2 := by
  unfold processAck
  split
  · exact h
  · rename_i ns _
    refine ackKeyUpdate_tx hi (ackHandshakeFlight_tx ⟨h.q, ?_, h.r⟩)
    intro e he
    obtain ⟨e', he', rfl⟩ := List.mem_map.mp he
    unfold markAcked
    split
    · exact h.g e' he'
    · exact h.g e' he'

/-! ## Receiving -/

theorem replayUpdate_q (s : Eng) (ep n : Nat) : (s.replayUpdate ep n).q = s.q ∧
    (s.replayUpdate ep n).saved = s.saved ∧ (s.replayUpdate ep n).received = s.received := by
  unfold Eng.replayUpdate
  split <;> exact ⟨rfl, rfl, rfl⟩

theorem noteOpened_tx {s : Eng} (h : TxOk Q G s) (k a c p ep n) : TxOk Q G (noteOpened s k a c p ep n) := by
  obtain ⟨h1, h2, h3⟩ := replayUpdate_q s ep n
  refine h.rx ?_ h2 h3
  rw [← h1]
  unfold noteOpened Eng.q
  have : (Eng.replayUpdate s ep n).log = s.log := by
    unfold Eng.replayUpdate; split <;> rfl
  rw [this]
  rfl

theorem openRecord_tx {s : Eng} (h : TxOk Q G s) (b f r) : TxOk Q G (openRecord env b f r s).2 := by
  unfold openRecord
  dsimp only
  repeat' split
  all_goals first
    | exact h
    | exact noteOpened_tx h _ _ _ _ _ _

theorem recordParse_tx {s : Eng} (h : TxOk Q G s) (b) : TxOk Q G (recordParse env b s).2 := by
  unfold recordParse
  dsimp only
  repeat' split
  all_goals first
    | exact h
    | exact openRecord_tx h _ _ _

theorem parseSlices_tx (l : List Bytes) (e acc) {s : Eng} (h : TxOk Q G s) :
    TxOk Q G (parseSlices env l e acc s).2 := by
  induction l generalizing s acc with
  | nil => cases e <;> exact h
  | cons b rest ih =>
    unfold parseSlices
    rw [bind_snd]
    have h1 := recordParse_tx (env := env) h b
    split
    · split
      · exact ih _ h1
      · split
        · exact h1
        · exact ih _ h1
    · exact h1

theorem classify_tx (hi : TxCore env Q G) {s : Eng} (h : TxOk Q G s) (r) :
    TxOk Q G (classify env r s).2 := by
  unfold classify classifyAlert
  split
  · exact h
  · split
    · exact h
    · split
      · rw [bind_snd]
        have h1 := processAck_tx hi h r.rcd.fragment
        split <;> exact h1
      · repeat' split
        all_goals first
          | exact h
          | exact h.rx rfl rfl rfl

theorem classifyAll_tx (hi : TxCore env Q G) (l acc) {s : Eng} (h : TxOk Q G s) :
    TxOk Q G (classifyAll env l acc s).2 := by
  induction l generalizing s acc with
  | nil => exact h
  | cons r rest ih =>
    unfold classifyAll
    rw [bind_snd]
    have h1 := classify_tx hi h r
    split
    · split
      · exact ih _ h1
      · exact ih _ h1
    · exact h1

theorem recordsParse_tx (hi : TxCore env Q G) {s : Eng} (h : TxOk Q G s) (p) :
    TxOk Q G (recordsParse env p s).2 := by
  unfold recordsParse
  rw [bind_snd]
  have h1 := parseSlices_tx (env := env) (split13 p).1 (split13 p).2 [] h
  split
  · exact classifyAll_tx hi _ _ h1
  · exact h1

theorem maybeResend_tx (hi : TxCore env Q G) {s : Eng} (h : TxOk Q G s) (rs) :
    TxOk Q G (maybeResend env rs s).2 := by
  unfold maybeResend
  repeat' split
  all_goals first
    | exact h
    | exact flightResend_tx hi h

theorem noteReceived_le (l rs) : (noteReceived l rs).length ≤ 32 := by
  unfold noteReceived
  simp
  omega

theorem insertHs_tx {s : Eng} (h : TxOk Q G s) (rs) : TxOk Q G (insertHs env rs s).2 := by
  unfold insertHs
  dsimp only
  repeat' split
  all_goals first
    | exact h.rx rfl rfl rfl
    | exact h.of rfl (fun _ he => he) (noteReceived_le _ _)

theorem insertHandshakeTail_tx {s : Eng} (h : TxOk Q G s) (rs x) :
    TxOk Q G (insertHandshakeTail env rs x s).2 := by
  unfold insertHandshakeTail
  repeat' split
  all_goals first
    | exact h
    | exact insertHs_tx h _

theorem insertBySeq_tx {s : Eng} (h : TxOk Q G s) (rs) : TxOk Q G (insertBySeq env rs s).2 := by
  unfold insertBySeq
  dsimp only
  split <;> exact h.rx rfl rfl rfl

theorem insertIncoming_tx (hi : TxCore env Q G) {s : Eng} (h : TxOk Q G s) (rs) :
    TxOk Q G (insertIncoming env rs s).2 := by
  unfold insertIncoming
  split
  · exact h
  · split
    · exact h
    · rename_i r _
      split
      · rw [bind_snd]
        have h1 := maybeResend_tx hi h (r :: ‹List Rx›)
        split
        · exact insertHandshakeTail_tx h1 _ _
        · exact h1
      · exact insertBySeq_tx h _

theorem parsePacket_tx (hi : TxCore env Q G) {s : Eng} (h : TxOk Q G s) (p) :
    TxOk Q G (parsePacket env p s).2 := by
  unfold parsePacket
  rw [bind_snd]
  have h1 := recordsParse_tx hi h p
  split
  · split
    · exact h1
    · exact insertIncoming_tx hi h1 _
  · exact h1

theorem reparse_tx (hi : TxCore env Q G) (l) {s : Eng} (h : TxOk Q G s) : TxOk Q G (reparse env l s).2 := by
  induction l generalizing s with
  | nil => exact h
  | cons b rest ih =>
    unfold reparse
    rw [bind_snd]
    have h1 := parsePacket_tx hi h b
    split
    · exact ih h1
    · exact h1

theorem enablePeerEncryption_tx (hi : TxCore env Q G) {s : Eng} (h : TxOk Q G s) :
    TxOk Q G (enablePeerEncryption env s).2 := by
  unfold enablePeerEncryption
  dsimp only
  split
  · exact h.rx rfl rfl rfl
  · exact reparse_tx hi _ (h.rx rfl rfl rfl)

theorem defragment_tx {s : Eng} (h : TxOk Q G s) (a i f r) : TxOk Q G (defragment env a i f r s).2 := by
  unfold defragment
  dsimp only
  repeat' split
  all_goals exact h.rx rfl rfl rfl

theorem nextHandshakeWith_tx {s : Eng} (h : TxOk Q G s) (a i t) :
    TxOk Q G (nextHandshakeWith env a i t s).2 := by
  unfold nextHandshakeWith
  repeat' split
  all_goals first
    | exact h
    | exact defragment_tx h _ _ _ _

theorem scheduleAck_tx {s : Eng} (h : TxOk Q G s) (n) : TxOk Q G (scheduleAck n s) := by
  unfold scheduleAck
  repeat' split
  all_goals exact h.rx rfl rfl rfl

theorem handleTimeout_tx (hi : TxCore env Q G) {s : Eng} (h : TxOk Q G s) (n) :
    TxOk Q G (handleTimeout env n s).2 := by
  unfold handleTimeout
  dsimp only
  generalize Timers.handle _ _ _ _ = x
  have h1 : ∀ t, TxOk Q G { s with timers := t, tick := s.tick + 1 } := fun t => h.rx rfl rfl rfl
  split
  · exact h1 _
  · exact h1 _
  · exact h1 _
  · exact flushAck_tx hi (scheduleAck_tx (h1 _) _) _
  · rw [bind_snd]
    have h2 := flightResend_tx hi (h1 x.1)
    split
    · exact flushAck_tx hi (scheduleAck_tx h2 _) _
    · exact h2

theorem pollOutput_tx (hi : SentOk Q) {s : Eng} (h : TxOk Q G s) (b n) :
    TxOk Q G (pollOutput b n s).2 := by
  have hr : ∀ {s : Eng}, TxOk Q G s → TxOk Q G (pollRest b n s).2 := by
    intro s h
    have h1 := scheduleAck_tx h n
    unfold pollRest
    dsimp only
    generalize scheduleAck n s = u at h1
    split
    · rename_i p rest he
      split
      · exact h1
      · exact ⟨hi u p rest h1.q he, h1.g, h1.r⟩
    · split
      · exact h1.rx rfl rfl rfl
      · exact h1
  have hp : TxOk Q G (purge s) := h.rx rfl rfl rfl
  unfold pollOutput
  dsimp only
  repeat' split
  all_goals first
    | exact hp
    | exact hp.rx rfl rfl rfl
    | exact hr hp

theorem replaceTranscript_tx {s : Eng} (h : TxOk Q G s) (n) : TxOk Q G (replaceTranscript env n s).2 := by
  unfold replaceTranscript
  dsimp only
  repeat' split
  all_goals exact h.rx rfl rfl rfl

theorem updateRecvKeys_tx {s : Eng} (h : TxOk Q G s) : TxOk Q G (updateRecvKeys env s).2 := by
  unfold updateRecvKeys
  split
  · exact h
  · refine of_wp (m := M.bind _ _) (TxOk Q G) ?_
    rw [wp_bind]
    refine wp_deriveNextSecret (fun _ _ _ _ => ?_) h h
    split
    · exact h
    · rw [wp_bind]
      refine wp_deriveEpochKeys (fun _ _ _ _ => ?_) h h
      exact h.rx rfl rfl rfl

/-! ## The relations of sessions -/

/-- `P` is kept. -/
def Keeps (P : Eng → Prop) (e e' : Eng) : Prop := P e → P e'

theorem TxHs.frame (hi : TxHs env Q G)
    (hs : ∀ (s : Eng) n, Q s.q → Q { s.q with suite := some n }) : Frame env (Keeps (TxOk Q G)) where
  refl _ h := h
  trans _ _ _ h1 h2 h := h2 (h1 h)
  handshake _ _ _ h := createHandshake_tx hi h _ _
  next _ _ _ _ h := nextHandshakeWith_tx h _ _ _
  advance e h := by
    unfold advancePeerSeq
    split
    · exact h
    · exact h.rx rfl rfl rfl
  flightBegin _ h := ⟨h.q, (fun _ he => nomatch he), h.r⟩
  flightStop _ _ h := h.rx rfl rfl rfl
  tick _ h := h.rx rfl rfl rfl
  suite e n _ h := ⟨hs e n h.q, h.g, h.r⟩
  exporter _ _ h := h.rx rfl rfl rfl
  rollback _ _ h := h.rx rfl rfl rfl
  replace _ _ h := replaceTranscript_tx h _
  ackFinal _ h := sendAckRetransmittable_tx hi.toTxCore h

theorem TxInv.app (hi : TxInv env ok Q G) : AppFrame env ok (Keeps (TxOk Q G)) where
  data _ _ hd h := createCipher_tx hi.toTxCore h _ _ _ _ (hi.dataRec _ _ h.q hd) (.inr rfl)
  asked e h := ⟨hi.asked e h.q, h.g, h.r⟩
  keyUpdate _ h := createKeyUpdate_tx hi.toTxHs h _ fun t h _ _ _ => hi.ku t _ h
  auto e _ _ h := createKeyUpdate_tx (s := { e with needsKu := false }) hi.toTxHs ⟨hi.asked e h.q, h.g, h.r⟩ _
    fun t h _ _ _ => hi.ku t _ h
  newRecv _ h := updateRecvKeys_tx h
  ack _ h := sendAck_tx hi.toTxCore h

theorem TxHs.api (hi : TxHs env Q G) (ha : ∀ (s : Eng), Q s.q → G s.cfg s.appEpoch ctAlert s.appEpoch [1, 0]) :
    ApiFrame env (Keeps (TxOk Q G)) where
  packet _ _ h := parsePacket_tx hi.toTxCore h _
  timeout _ _ h := handleTimeout_tx hi.toTxCore h _
  alert _ h := createCipher_tx hi.toTxCore h _ _ _ _ (ha _ h.q) (.inr rfl)
  cancel _ h := ⟨h.q, (fun _ he => nomatch he), h.r⟩
  abort e h := ⟨hi.abort e h.q, (fun _ he => nomatch he), h.r⟩

theorem TxInv.api (hi : TxInv env ok Q G) : ApiFrame env (Keeps (TxOk Q G)) := hi.toTxHs.api hi.alertRec

/-- New keys and HelloRetryRequests, for invariants that do not depend on them. -/
theorem keyFrame_of (hi : TxHs env Q G) (h1 : ∀ (s : Eng) k, Q s.q → Q { s.q with hsSend := some k })
    (h2 : ∀ (s : Eng), Q s.q → Q { s.q with hsSeq := 0 })
    (h3 : ∀ (s : Eng) k, Q s.q → Q { s.q with appSend := some k })
    (h4 : ∀ (s : Eng), Q s.q → Q { s.q with appEpoch := 3, appSeq := 0 })
    (h5 : ∀ cfg n m c ep f, G cfg n c ep f → G cfg m c ep f) : KeyFrame env (Keeps (TxOk Q G)) where
  hsKeys e a b h := by
    refine of_wp (TxOk Q G) ?_
    unfold installHandshakeKeys
    rw [wp_bind, wp_get, wp_bind]
    refine wp_deriveEpochKeys (fun _ k _ _ => ?_) h h
    rw [wp_bind, wp_modify, wp_bind]
    have g1 : TxOk Q G { e with hsSend := some k } := ⟨h1 e k h.q, h.g, h.r⟩
    refine wp_deriveEpochKeys (fun _ k' _ _ => ?_) g1 g1
    exact ⟨h2 { e with hsSend := some k } g1.q, h.g, h.r⟩
  appKeys e a b h := by
    refine of_wp (TxOk Q G) ?_
    unfold installApplicationKeys
    rw [wp_bind, wp_get, wp_bind]
    refine wp_deriveEpochKeys (fun _ k _ _ => ?_) h h
    rw [wp_bind, wp_modify, wp_bind]
    have g1 : TxOk Q G { e with appSend := some k } := ⟨h3 e k h.q, h.g, h.r⟩
    refine wp_deriveEpochKeys (fun _ k' _ _ => ?_) g1 g1
    rw [wp_bind, wp_get]
    split
    · exact g1
    · exact ⟨h4 { e with appSend := some k } g1.q, fun x hx => h5 _ _ _ _ _ _ (h.g x hx), h.r⟩
  enablePeer _ h := enablePeerEncryption_tx hi.toTxCore h
  retry e h := ⟨h2 e h.q, h.g, h.r⟩
  release _ h := h.rx rfl rfl rfl
  retain _ h := h.rx rfl rfl rfl

end
end Verif.E13

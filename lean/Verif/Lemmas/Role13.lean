import Verif.Lemmas.Hist13
/-!
# The role and the configuration of the engine of a DTLS 1.3 session never change
-/
namespace Verif.E13
open Verif Wire Window Timer Aead M
open Verif.E12 (Call)

/-- Whose keys the engine sends with and its configuration. -/
def Eng.who (s : Eng) : Bool × Cfg := (s.isClient, s.cfg)

section same
variable {env : Env}

theorem createPlain_who (c sv f) (s : Eng) : (createPlain c sv f s).2.who = s.who := by
  refine createPlain_ind (motive := fun r => r.2.who = s.who) c sv f s (fun _ _ => rfl) (fun _ _ _ => rfl) ?_
  intro _ _ _
  unfold emitPlain pushWire
  split <;> rfl

theorem emitCipher_who (env : Env) (s : Eng) (suite sl k c ep a f ct) :
    (emitCipher env s suite sl k c ep a f ct).who = s.who := by
  obtain ⟨a1, a2, a3, a4, a5, h1⟩ := countSent_eq s sl ep
  unfold emitCipher
  dsimp only
  rw [h1]
  unfold pushWire
  split <;> rfl

theorem createCipher_who (c ep sv f) (s : Eng) : (createCipher env c ep sv f s).2.who = s.who := by
  refine createCipher_ind (motive := fun r => r.2.who = s.who) env c ep sv f s (fun _ _ => rfl)
    (fun _ _ _ => rfl) (fun _ _ _ _ _ _ _ _ => rfl) ?_
  intro suite tag k ct _ _ _ _
  exact emitCipher_who ..

theorem resendEntry_who (x : Entry) (s : Eng) : (resendEntry env x s).2.who = s.who := by
  unfold resendEntry
  split
  · rw [bind_snd]; split <;> exact createPlain_who ..
  · rw [bind_snd]; split <;> exact createCipher_who ..

theorem resendLoop_who (l : List Entry) (s : Eng) : (resendLoop env l s).2.who = s.who := by
  induction l generalizing s with
  | nil => rfl
  | cons x l ih =>
    unfold resendLoop
    split
    · rw [bind_snd]; split <;> exact ih s
    · rw [bind_snd]; split
      · rw [bind_snd]; split <;> exact (ih _).trans (resendEntry_who x s)
      · exact resendEntry_who x s

theorem flightResend_who (s : Eng) : (flightResend env s).2.who = s.who := by
  unfold flightResend
  rw [bind_snd]; split <;> exact resendLoop_who s.saved { s with saved := [], sealedDg := true }

theorem createHsRecord_who (ep f) (s : Eng) : (createHsRecord env ep f s).2.who = s.who := by
  unfold createHsRecord
  split
  · exact createPlain_who ..
  · exact createCipher_who ..

theorem fragmentLoop_who (t seq ep fixed body n off) (s : Eng) :
    (fragmentLoop env t seq ep fixed body n off s).2.who = s.who := by
  induction n generalizing off s with
  | zero => rfl
  | succ n ih =>
    unfold fragmentLoop
    split
    · rw [bind_snd]
      show ((M.bind (createHsRecord env ep _) _) s).2.who = s.who
      rw [bind_snd]
      split
      · split
        · exact createHsRecord_who ..
        · exact (ih _ _).trans (createHsRecord_who ..)
      · exact createHsRecord_who ..
    · rfl

theorem createHandshake_who (t b) (s : Eng) : (createHandshake env t b s).2.who = s.who := by
  unfold createHandshake
  dsimp only
  split
  · rfl
  · split
    · rfl
    · exact fragmentLoop_who ..

theorem sendAckInner_who (sv) (s : Eng) : (sendAckInner env sv s).2.who = s.who := by
  unfold sendAckInner
  split
  · rfl
  · exact createCipher_who ..

theorem sendAckRetransmittable_who (s : Eng) : (sendAckRetransmittable env s).2.who = s.who := by
  unfold sendAckRetransmittable
  rw [sendAckInner_who]
  split <;> rfl

theorem flushAck_who (now) (s : Eng) : (flushAck env now s).2.who = s.who := by
  unfold flushAck
  split
  · rfl
  · split
    · rfl
    · dsimp only
      split
      · rfl
      · split
        · rfl
        · exact createCipher_who ..

theorem scheduleAck_who (now) (s : Eng) : (scheduleAck now s).who = s.who := by
  unfold scheduleAck
  repeat' split
  all_goals rfl

theorem ackDuty_who (now) (s : Eng) : (ackDuty env now s).2.who = s.who :=
  (flushAck_who now _).trans (scheduleAck_who now s)

theorem updateSendKeys_who (s : Eng) : (updateSendKeys env s).2.who = s.who := by
  refine of_wp (fun s' : Eng => s'.who = s.who) ?_
  exact wp_updateSendKeys (fun _ => rfl) (fun _ _ => rfl) (fun _ _ _ _ _ _ _ _ _ => rfl)

theorem ackKeyUpdate_who (s : Eng) : (ackKeyUpdate env s).2.who = s.who := by
  unfold ackKeyUpdate
  split
  · rw [bind_snd]; split <;> exact updateSendKeys_who s
  · rfl

theorem processAck_who (d) (s : Eng) : (processAck env d s).2.who = s.who := by
  unfold processAck
  split
  · rfl
  · rw [ackKeyUpdate_who]
    unfold ackHandshakeFlight
    split <;> rfl

theorem createKeyUpdate_who (r) (s : Eng) : (createKeyUpdate env r s).2.who = s.who := by
  refine of_wp (fun s' : Eng => s'.who = s.who) ?_
  unfold createKeyUpdate
  rw [wp_bind, wp_modify, wp_bind, wp_get]
  split
  · rfl
  · rw [wp_bind, wp_modify, wp_bind]
    refine wp_mono (to_wp (R := fun s' : Eng => s'.who = s.who) (createCipher_who ..)) ?_ (fun _ _ h => h)
    intro _ t h
    rw [wp_modify]
    exact h

theorem replaceTranscript_who (n) (s : Eng) : (replaceTranscript env n s).2.who = s.who := by
  unfold replaceTranscript
  split
  · rfl
  · split <;> rfl

theorem maybeResend_who (l) (s : Eng) : (maybeResend env l s).2.who = s.who := by
  unfold maybeResend
  split
  · split
    · exact flightResend_who s
    · rfl
  · rfl


theorem installHandshakeKeys_who (a b) (s : Eng) : (installHandshakeKeys env a b s).2.who = s.who := by
  refine of_wp (fun s' : Eng => s'.who = s.who) ?_
  unfold installHandshakeKeys
  rw [wp_bind, wp_get, wp_bind]
  refine wp_deriveEpochKeys (fun _ _ _ _ => ?_) rfl rfl
  rw [wp_bind, wp_modify, wp_bind]
  refine wp_deriveEpochKeys (fun _ _ _ _ => ?_) rfl rfl
  rw [wp_modify]; rfl

theorem installApplicationKeys_who (a b) (s : Eng) : (installApplicationKeys env a b s).2.who = s.who := by
  refine of_wp (fun s' : Eng => s'.who = s.who) ?_
  unfold installApplicationKeys
  rw [wp_bind, wp_get, wp_bind]
  refine wp_deriveEpochKeys (fun _ _ _ _ => ?_) rfl rfl
  rw [wp_bind, wp_modify, wp_bind]
  refine wp_deriveEpochKeys (fun _ _ _ _ => ?_) rfl rfl
  rw [wp_bind, wp_get]
  split
  · rfl
  · rw [wp_modify]; rfl

theorem updateRecvKeys_who (s : Eng) : (updateRecvKeys env s).2.who = s.who := by
  unfold updateRecvKeys
  split
  · rfl
  · refine of_wp (fun s' : Eng => s'.who = s.who) ?_
    rw [wp_bind]
    refine wp_deriveNextSecret (fun _ _ _ _ => ?_) rfl rfl
    split
    · rfl
    · rw [wp_bind]
      refine wp_deriveEpochKeys (fun _ _ _ _ => ?_) rfl rfl
      rw [wp_modify]; rfl

theorem replayUpdate_who (s : Eng) (a b : Nat) : (s.replayUpdate a b).who = s.who := by
  unfold Eng.replayUpdate
  split <;> rfl

theorem openRecord_who (b f r) (s : Eng) : (openRecord env b f r s).2.who = s.who := by
  unfold openRecord
  dsimp only
  split
  · rfl
  · split
    · rfl
    · split
      · rfl
      · split
        · rfl
        · split
          · rfl
          · split <;> exact replayUpdate_who s _ _

theorem recordParse_who (b) (s : Eng) : (recordParse env b s).2.who = s.who := by
  unfold recordParse
  dsimp only
  split
  · rfl
  · split
    · split
      · exact openRecord_who ..
      · rfl
    · rfl
    · rfl

theorem parseSlices_who (l e acc) (s : Eng) : (parseSlices env l e acc s).2.who = s.who := by
  induction l generalizing acc s with
  | nil => cases e <;> rfl
  | cons b l ih =>
    unfold parseSlices
    rw [bind_snd]
    have h := recordParse_who (env := env) b s
    split
    · split
      · exact (ih _ _).trans h
      · split
        · exact h
        · exact (ih _ _).trans h
    · exact h

theorem classify_who (r) (s : Eng) : (classify env r s).2.who = s.who := by
  unfold classify
  split
  · rfl
  · split
    · rfl
    · split
      · rw [bind_snd]; split <;> exact processAck_who ..
      · split
        · unfold classifyAlert
          split
          · rfl
          · split
            · rfl
            · split <;> rfl
        · split <;> rfl

theorem classifyAll_who (l acc) (s : Eng) : (classifyAll env l acc s).2.who = s.who := by
  induction l generalizing acc s with
  | nil => rfl
  | cons b l ih =>
    unfold classifyAll
    rw [bind_snd]
    have h := classify_who (env := env) b s
    split
    · split <;> exact (ih _ _).trans h
    · exact h

theorem recordsParse_who (p) (s : Eng) : (recordsParse env p s).2.who = s.who := by
  unfold recordsParse
  rw [bind_snd]
  split
  · exact (classifyAll_who _ _ _).trans (parseSlices_who ..)
  · exact parseSlices_who ..

theorem insertHs_who (l) (s : Eng) : (insertHs env l s).2.who = s.who := by
  unfold insertHs
  dsimp only
  split
  · rfl
  · split
    · rfl
    · split <;> rfl

theorem insertIncoming_who (l) (s : Eng) : (insertIncoming env l s).2.who = s.who := by
  unfold insertIncoming
  split
  · rfl
  · split
    · rfl
    · split
      · rw [bind_snd]
        have h := maybeResend_who (env := env)
        split
        · unfold insertHandshakeTail
          split
          · exact h ..
          · split
            · exact h ..
            · exact (insertHs_who _ _).trans (h ..)
        · exact h ..
      · unfold insertBySeq
        dsimp only
        split <;> rfl

theorem parsePacket_who (p) (s : Eng) : (parsePacket env p s).2.who = s.who := by
  unfold parsePacket
  rw [bind_snd]
  split
  · split
    · exact recordsParse_who ..
    · exact (insertIncoming_who _ _).trans (recordsParse_who ..)
  · exact recordsParse_who ..

theorem reparse_who (l) (s : Eng) : (reparse env l s).2.who = s.who := by
  induction l generalizing s with
  | nil => rfl
  | cons b l ih =>
    unfold reparse
    rw [bind_snd]
    split
    · exact (ih _).trans (parsePacket_who ..)
    · exact parsePacket_who ..

theorem enablePeerEncryption_who (s : Eng) : (enablePeerEncryption env s).2.who = s.who := by
  unfold enablePeerEncryption
  dsimp only
  split
  · rfl
  · exact reparse_who ..

theorem nextHandshakeWith_who (a i t) (s : Eng) : (nextHandshakeWith env a i t s).2.who = s.who := by
  unfold nextHandshakeWith
  split
  · rfl
  · split
    · rfl
    · unfold defragment
      dsimp only
      repeat' split
      all_goals rfl

theorem advancePeerSeq_who (s : Eng) : (advancePeerSeq s).2.who = s.who := by
  unfold advancePeerSeq
  split <;> rfl

theorem pollOutput_who (b n) (s : Eng) : (pollOutput b n s).2.who = s.who := by
  unfold pollOutput pollRest
  dsimp only
  repeat' split
  all_goals first | rfl | exact (scheduleAck_who n (purge s)) | exact (scheduleAck_who n _).trans rfl

end same

theorem handleTimeout_who (env : Env) (n : Nat) (s : Eng) : (handleTimeout env n s).2.who = s.who := by
  unfold handleTimeout
  generalize s.timers.handle s.cfg.handshakeTimeout n (env.jitter s.tick) = r
  obtain ⟨t, f⟩ := r
  have e : ({ s with timers := t, tick := s.tick + 1 } : Eng).who = s.who := rfl
  cases f
  · exact e
  · exact (ackDuty_who ..).trans e
  · dsimp only
    rw [bind_snd]
    split
    · exact ((ackDuty_who ..).trans (flightResend_who _)).trans e
    · exact (flightResend_who _).trans e
  · exact e
  · exact e

/-! ## Sessions -/

def SameRole (e e' : Eng) : Prop := e'.who = e.who

theorem role_frame (env : Env) : Frame env SameRole where
  refl _ := rfl
  trans _ _ _ h g := g.trans h
  handshake e t b := createHandshake_who t b e
  next e a i t := nextHandshakeWith_who a i t e
  advance e := advancePeerSeq_who e
  flightBegin _ := rfl
  flightStop _ _ := rfl
  tick _ := rfl
  suite _ _ _ := rfl
  exporter _ _ := rfl
  rollback _ _ := rfl
  replace e n := replaceTranscript_who n e
  ackFinal e := sendAckRetransmittable_who e

theorem role_keyFrame (env : Env) : KeyFrame env SameRole where
  hsKeys e a b := installHandshakeKeys_who a b e
  appKeys e a b := installApplicationKeys_who a b e
  enablePeer e := enablePeerEncryption_who e
  retry _ := rfl
  release _ := rfl
  retain _ := rfl

theorem role_app (env : Env) : AppFrame env (fun _ => True) SameRole where
  data _ _ _ := createCipher_who ..
  asked _ := rfl
  keyUpdate e := createKeyUpdate_who _ e
  auto e _ _ := createKeyUpdate_who true { e with needsKu := false }
  newRecv e := updateRecvKeys_who e
  ack e := sendAckInner_who _ e

theorem role_api (env : Env) : ApiFrame env SameRole where
  packet e p := parsePacket_who p e
  timeout e n := handleTimeout_who env n e
  alert _ := createCipher_who ..
  cancel _ := rfl
  abort _ := rfl

theorem call_who {R : Role} {env : PEnv} {k : R.St → Bool} (ho : RoleOk R env k) (s : Ses R.St) (c : Call) :
    (call R env s c).2.eng.who = s.eng.who :=
  (call_afr ho (role_frame env.toEnv) (role_keyFrame env.toEnv) (role_app env.toEnv) (role_api env.toEnv) s
    (fun _ _ => trivial) c (fun _ _ _ _ => pollOutput_who ..) (fun _ _ => trivial)).1

/-- No call changes the role of the engine. -/
theorem call_isClient {R : Role} {env : PEnv} {k : R.St → Bool} (ho : RoleOk R env k) (s : Ses R.St) (c : Call) :
    (call R env s c).2.eng.isClient = s.eng.isClient := congrArg Prod.fst (call_who ho s c)

/-- No call changes the configuration. -/
theorem call_cfg {R : Role} {env : PEnv} {k : R.St → Bool} (ho : RoleOk R env k) (s : Ses R.St) (c : Call) :
    (call R env s c).2.eng.cfg = s.eng.cfg := congrArg Prod.snd (call_who ho s c)

end Verif.E13

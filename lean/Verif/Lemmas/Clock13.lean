import Verif.Lemmas.Hist13
/-!
# The connect timer of a DTLS 1.3 session
-/
namespace Verif.E13
open Verif Wire Window Timer Aead M
open Verif.E12 (Call)

/-- The configuration and the connect timer. -/
def Eng.ck (s : Eng) : Cfg × Timeout := (s.cfg, s.timers.connect)

section same
variable {env : Env}

theorem createPlain_ck (c sv f) (s : Eng) : (createPlain c sv f s).2.ck = s.ck := by
  refine createPlain_ind (motive := fun r => r.2.ck = s.ck) c sv f s (fun _ _ => rfl) (fun _ _ _ => rfl) ?_
  intro _ _ _
  unfold emitPlain pushWire
  split <;> rfl

theorem emitCipher_ck (env : Env) (s : Eng) (suite sl k c ep a f ct) :
    (emitCipher env s suite sl k c ep a f ct).ck = s.ck := by
  obtain ⟨a1, a2, a3, a4, a5, h1⟩ := countSent_eq s sl ep
  unfold emitCipher
  dsimp only
  rw [h1]
  unfold pushWire
  split <;> rfl

theorem createCipher_ck (c ep sv f) (s : Eng) : (createCipher env c ep sv f s).2.ck = s.ck := by
  refine createCipher_ind (motive := fun r => r.2.ck = s.ck) env c ep sv f s (fun _ _ => rfl)
    (fun _ _ _ => rfl) (fun _ _ _ _ _ _ _ _ => rfl) ?_
  intro suite tag k ct _ _ _ _
  exact emitCipher_ck ..

theorem resendEntry_ck (x : Entry) (s : Eng) : (resendEntry env x s).2.ck = s.ck := by
  unfold resendEntry
  split
  · rw [bind_snd]; split <;> exact createPlain_ck ..
  · rw [bind_snd]; split <;> exact createCipher_ck ..

theorem resendLoop_ck (l : List Entry) (s : Eng) : (resendLoop env l s).2.ck = s.ck := by
  induction l generalizing s with
  | nil => rfl
  | cons x l ih =>
    unfold resendLoop
    split
    · rw [bind_snd]; split <;> exact ih s
    · rw [bind_snd]; split
      · rw [bind_snd]; split <;> exact (ih _).trans (resendEntry_ck x s)
      · exact resendEntry_ck x s

theorem flightResend_ck (s : Eng) : (flightResend env s).2.ck = s.ck := by
  unfold flightResend
  rw [bind_snd]; split <;> exact resendLoop_ck s.saved { s with saved := [], sealedDg := true }

theorem createHsRecord_ck (ep f) (s : Eng) : (createHsRecord env ep f s).2.ck = s.ck := by
  unfold createHsRecord
  split
  · exact createPlain_ck ..
  · exact createCipher_ck ..

theorem fragmentLoop_ck (t seq ep fixed body n off) (s : Eng) :
    (fragmentLoop env t seq ep fixed body n off s).2.ck = s.ck := by
  induction n generalizing off s with
  | zero => rfl
  | succ n ih =>
    unfold fragmentLoop
    split
    · rw [bind_snd]
      show ((M.bind (createHsRecord env ep _) _) s).2.ck = s.ck
      rw [bind_snd]
      split
      · split
        · exact createHsRecord_ck ..
        · exact (ih _ _).trans (createHsRecord_ck ..)
      · exact createHsRecord_ck ..
    · rfl

theorem createHandshake_ck (t b) (s : Eng) : (createHandshake env t b s).2.ck = s.ck := by
  unfold createHandshake
  dsimp only
  split
  · rfl
  · split
    · rfl
    · exact fragmentLoop_ck ..

theorem sendAckInner_ck (sv) (s : Eng) : (sendAckInner env sv s).2.ck = s.ck := by
  unfold sendAckInner
  split
  · rfl
  · exact createCipher_ck ..

theorem sendAckRetransmittable_ck (s : Eng) : (sendAckRetransmittable env s).2.ck = s.ck := by
  unfold sendAckRetransmittable
  rw [sendAckInner_ck]
  split <;> rfl

theorem flushAck_ck (now) (s : Eng) : (flushAck env now s).2.ck = s.ck := by
  unfold flushAck
  split
  · rfl
  · split
    · rfl
    · dsimp only
      split
      · rfl
      · split
        · rfl
        · exact createCipher_ck ..

theorem scheduleAck_ck (now) (s : Eng) : (scheduleAck now s).ck = s.ck := by
  unfold scheduleAck
  repeat' split
  all_goals rfl

theorem ackDuty_ck (now) (s : Eng) : (ackDuty env now s).2.ck = s.ck :=
  (flushAck_ck now _).trans (scheduleAck_ck now s)

theorem updateSendKeys_ck (s : Eng) : (updateSendKeys env s).2.ck = s.ck := by
  refine of_wp (fun s' : Eng => s'.ck = s.ck) ?_
  exact wp_updateSendKeys (fun _ => rfl) (fun _ _ => rfl) (fun _ _ _ _ _ _ _ _ _ => rfl)

theorem ackKeyUpdate_ck (s : Eng) : (ackKeyUpdate env s).2.ck = s.ck := by
  unfold ackKeyUpdate
  split
  · rw [bind_snd]; split <;> exact updateSendKeys_ck s
  · rfl

theorem processAck_ck (d) (s : Eng) : (processAck env d s).2.ck = s.ck := by
  unfold processAck
  split
  · rfl
  · rw [ackKeyUpdate_ck]
    unfold ackHandshakeFlight
    split <;> rfl

theorem createKeyUpdate_ck (r) (s : Eng) : (createKeyUpdate env r s).2.ck = s.ck := by
  refine of_wp (fun s' : Eng => s'.ck = s.ck) ?_
  unfold createKeyUpdate
  rw [wp_bind, wp_modify, wp_bind, wp_get]
  split
  · rfl
  · rw [wp_bind, wp_modify, wp_bind]
    refine wp_mono (to_wp (R := fun s' : Eng => s'.ck = s.ck) (createCipher_ck ..)) ?_ (fun _ _ h => h)
    intro _ t h
    rw [wp_modify]
    exact h

theorem replaceTranscript_ck (n) (s : Eng) : (replaceTranscript env n s).2.ck = s.ck := by
  unfold replaceTranscript
  split
  · rfl
  · split <;> rfl

theorem maybeResend_ck (l) (s : Eng) : (maybeResend env l s).2.ck = s.ck := by
  unfold maybeResend
  split
  · split
    · exact flightResend_ck s
    · rfl
  · rfl


theorem installHandshakeKeys_ck (a b) (s : Eng) : (installHandshakeKeys env a b s).2.ck = s.ck := by
  refine of_wp (fun s' : Eng => s'.ck = s.ck) ?_
  unfold installHandshakeKeys
  rw [wp_bind, wp_get, wp_bind]
  refine wp_deriveEpochKeys (fun _ _ _ _ => ?_) rfl rfl
  rw [wp_bind, wp_modify, wp_bind]
  refine wp_deriveEpochKeys (fun _ _ _ _ => ?_) rfl rfl
  rw [wp_modify]; rfl

theorem installApplicationKeys_ck (a b) (s : Eng) : (installApplicationKeys env a b s).2.ck = s.ck := by
  refine of_wp (fun s' : Eng => s'.ck = s.ck) ?_
  unfold installApplicationKeys
  rw [wp_bind, wp_get, wp_bind]
  refine wp_deriveEpochKeys (fun _ _ _ _ => ?_) rfl rfl
  rw [wp_bind, wp_modify, wp_bind]
  refine wp_deriveEpochKeys (fun _ _ _ _ => ?_) rfl rfl
  rw [wp_bind, wp_get]
  split
  · rfl
  · rw [wp_modify]; rfl

theorem updateRecvKeys_ck (s : Eng) : (updateRecvKeys env s).2.ck = s.ck := by
  unfold updateRecvKeys
  split
  · rfl
  · refine of_wp (fun s' : Eng => s'.ck = s.ck) ?_
    rw [wp_bind]
    refine wp_deriveNextSecret (fun _ _ _ _ => ?_) rfl rfl
    split
    · rfl
    · rw [wp_bind]
      refine wp_deriveEpochKeys (fun _ _ _ _ => ?_) rfl rfl
      rw [wp_modify]; rfl

theorem replayUpdate_ck (s : Eng) (a b : Nat) : (s.replayUpdate a b).ck = s.ck := by
  unfold Eng.replayUpdate
  split <;> rfl

theorem openRecord_ck (b f r) (s : Eng) : (openRecord env b f r s).2.ck = s.ck := by
  unfold openRecord
  dsimp only
  split
  · rfl
  · split
    · rfl
    · split
      · rfl
      · split
        · rfl
        · split
          · rfl
          · split <;> exact replayUpdate_ck s _ _

theorem recordParse_ck (b) (s : Eng) : (recordParse env b s).2.ck = s.ck := by
  unfold recordParse
  dsimp only
  split
  · rfl
  · split
    · split
      · exact openRecord_ck ..
      · rfl
    · rfl
    · rfl

theorem parseSlices_ck (l e acc) (s : Eng) : (parseSlices env l e acc s).2.ck = s.ck := by
  induction l generalizing acc s with
  | nil => cases e <;> rfl
  | cons b l ih =>
    unfold parseSlices
    rw [bind_snd]
    have h := recordParse_ck (env := env) b s
    split
    · split
      · exact (ih _ _).trans h
      · split
        · exact h
        · exact (ih _ _).trans h
    · exact h

theorem classify_ck (r) (s : Eng) : (classify env r s).2.ck = s.ck := by
  unfold classify
  split
  · rfl
  · split
    · rfl
    · split
      · rw [bind_snd]; split <;> exact processAck_ck ..
      · split
        · unfold classifyAlert
          split
          · rfl
          · split
            · rfl
            · split <;> rfl
        · split <;> rfl

theorem classifyAll_ck (l acc) (s : Eng) : (classifyAll env l acc s).2.ck = s.ck := by
  induction l generalizing acc s with
  | nil => rfl
  | cons b l ih =>
    unfold classifyAll
    rw [bind_snd]
    have h := classify_ck (env := env) b s
    split
    · split <;> exact (ih _ _).trans h
    · exact h

theorem recordsParse_ck (p) (s : Eng) : (recordsParse env p s).2.ck = s.ck := by
  unfold recordsParse
  rw [bind_snd]
  split
  · exact (classifyAll_ck _ _ _).trans (parseSlices_ck ..)
  · exact parseSlices_ck ..

theorem insertHs_ck (l) (s : Eng) : (insertHs env l s).2.ck = s.ck := by
  unfold insertHs
  dsimp only
  split
  · rfl
  · split
    · rfl
    · split <;> rfl

theorem insertIncoming_ck (l) (s : Eng) : (insertIncoming env l s).2.ck = s.ck := by
  unfold insertIncoming
  split
  · rfl
  · split
    · rfl
    · split
      · rw [bind_snd]
        have h := maybeResend_ck (env := env)
        split
        · unfold insertHandshakeTail
          split
          · exact h ..
          · split
            · exact h ..
            · exact (insertHs_ck _ _).trans (h ..)
        · exact h ..
      · unfold insertBySeq
        dsimp only
        split <;> rfl

theorem parsePacket_ck (p) (s : Eng) : (parsePacket env p s).2.ck = s.ck := by
  unfold parsePacket
  rw [bind_snd]
  split
  · split
    · exact recordsParse_ck ..
    · exact (insertIncoming_ck _ _).trans (recordsParse_ck ..)
  · exact recordsParse_ck ..

theorem reparse_ck (l) (s : Eng) : (reparse env l s).2.ck = s.ck := by
  induction l generalizing s with
  | nil => rfl
  | cons b l ih =>
    unfold reparse
    rw [bind_snd]
    split
    · exact (ih _).trans (parsePacket_ck ..)
    · exact parsePacket_ck ..

theorem enablePeerEncryption_ck (s : Eng) : (enablePeerEncryption env s).2.ck = s.ck := by
  unfold enablePeerEncryption
  dsimp only
  split
  · rfl
  · exact reparse_ck ..

theorem nextHandshakeWith_ck (a i t) (s : Eng) : (nextHandshakeWith env a i t s).2.ck = s.ck := by
  unfold nextHandshakeWith
  split
  · rfl
  · split
    · rfl
    · unfold defragment
      dsimp only
      repeat' split
      all_goals rfl

theorem advancePeerSeq_ck (s : Eng) : (advancePeerSeq s).2.ck = s.ck := by
  unfold advancePeerSeq
  split <;> rfl

theorem pollOutput_ck (b n) (s : Eng) : (pollOutput b n s).2.ck = s.ck := by
  unfold pollOutput pollRest
  dsimp only
  repeat' split
  all_goals first | rfl | exact (scheduleAck_ck n (purge s)) | exact (scheduleAck_ck n _).trans rfl

end same

/-! ## The connect timer -/

/-- Configuration and connect timer are the same. -/
def SameClock (e e' : Eng) : Prop := e'.ck = e.ck

theorem clock_frame (env : Env) : Frame env SameClock False where
  refl _ := rfl
  trans _ _ _ h g := g.trans h
  handshake e t b := createHandshake_ck t b e
  next e a i t := nextHandshakeWith_ck a i t e
  advance e := advancePeerSeq_ck e
  flightBegin _ := rfl
  flightStop h := h.elim
  tick _ := rfl
  suite _ _ _ := rfl
  exporter _ _ := rfl
  rollback _ _ := rfl
  replace e n := replaceTranscript_ck n e
  ackFinal e := sendAckRetransmittable_ck e

theorem clock_keyFrame (env : Env) : KeyFrame env SameClock where
  hsKeys e a b := installHandshakeKeys_ck a b e
  appKeys e a b := installApplicationKeys_ck a b e
  enablePeer e := enablePeerEncryption_ck e
  retry _ := rfl
  release _ := rfl
  retain _ := rfl

theorem clock_app (env : Env) : AppFrame env (fun _ => True) SameClock where
  data _ _ _ := createCipher_ck ..
  asked _ := rfl
  keyUpdate e := createKeyUpdate_ck _ e
  auto e _ _ := createKeyUpdate_ck true { e with needsKu := false }
  newRecv e := updateRecvKeys_ck e
  ack e := sendAckInner_ck _ e

theorem arm_connect (t : Timers) (h n : Nat) : (t.arm h n).connect =
    if t.connect = .unarmed then .armed (n + h) else t.connect := by
  unfold Timers.arm
  dsimp only
  by_cases h1 : t.connect = .unarmed <;> simp only [h1, if_true, if_false] <;> split <;> simp_all

theorem handle_connect (t : Timers) (h n : Nat) (j : Int) : (t.handle h n j).1.connect = (t.arm h n).connect := by
  unfold Timers.handle
  dsimp only
  repeat' split
  all_goals rfl

/-- After `handle_timeout` only arming has happened to the connect timer. -/
theorem handleTimeout_ck (env : Env) (n : Nat) (s : Eng) : (handleTimeout env n s).2.ck =
    (s.cfg, if s.timers.connect = .unarmed then .armed (n + s.cfg.handshakeTimeout) else s.timers.connect) := by
  have h := handle_connect s.timers s.cfg.handshakeTimeout n (env.jitter s.tick)
  rw [arm_connect] at h
  unfold handleTimeout
  generalize s.timers.handle s.cfg.handshakeTimeout n (env.jitter s.tick) = r at h
  obtain ⟨t, f⟩ := r
  have e : ({ s with timers := t, tick := s.tick + 1 } : Eng).ck =
      (s.cfg, if s.timers.connect = .unarmed then .armed (n + s.cfg.handshakeTimeout) else s.timers.connect) :=
    Prod.ext rfl h
  cases f
  · exact e
  · exact (ackDuty_ck ..).trans e
  · dsimp only
    rw [bind_snd]
    split
    · exact ((ackDuty_ck ..).trans (flightResend_ck _)).trans e
    · exact (flightResend_ck _).trans e
  · exact e
  · exact e

/-- Once the time has come, `handle_timeout` fails. -/
theorem handleTimeout_fires (env : Env) (s : Eng) (n t : Nat) (h : s.timers.connect = .armed t) (ht : t ≤ n) :
    (handleTimeout env n s).1 = .fail (.fatal .timeoutConnect) := by
  have h1 : (s.timers.arm s.cfg.handshakeTimeout n).connect = .armed t := by
    rw [arm_connect, h]; rfl
  have h2 : (Timeout.armed t).expired n = true := decide_eq_true ht
  have h3 : s.timers.handle s.cfg.handshakeTimeout n (env.jitter s.tick) =
      (s.timers.arm s.cfg.handshakeTimeout n, .connectTimeout) := by
    unfold Timers.handle
    dsimp only
    rw [h1, h2]; rfl
  unfold handleTimeout
  rw [h3]

/-! ## Calls -/

/-- What a call does to the connect timer as long as nothing stops it. -/
def afterCall (c : Call) (x : Cfg × Timeout) : Cfg × Timeout :=
  match c with
  | .timeout n => (x.1, if x.2 = .unarmed then .armed (n + x.1.handshakeTimeout) else x.2)
  | _ => x

theorem handleTimeout_after (env : Env) (n : Nat) (s : Eng) :
    (handleTimeout env n s).2.ck = afterCall (.timeout n) s.ck := handleTimeout_ck env n s

section calls
variable {R : Role} {env : PEnv}

theorem noteTime_ck (n : Nat) (s : Ses R.St) : (noteTime R env n s).eng.ck = s.eng.ck :=
  (noteTime_eng n s (clock_frame env.toEnv)).1

/-- If no state stops the timers, only the first `handle_timeout` changes the connect timer. -/
theorem call_ck (hs : ∀ st, AFr (fun _ => True) SameClock (R.step env st)) (s : Ses R.St) (c : Call)
    (hc : c ≠ .close) : (call R env s c).2.eng.ck = afterCall c s.eng.ck := by
  cases c with
  | packet p =>
    exact (handlePacketM_of (clock_frame env.toEnv) hs (fun e p => parsePacket_ck p e) p s (fun _ _ => trivial)).1
  | timeout n =>
    show (handleTimeoutM R env n s).2.eng.ck = _
    unfold handleTimeoutM
    simp only [bind_eq]
    change (M.bind (onEng (handleTimeout env.toEnv n)) (fun _ => progress R env progressFuel)
      (noteTime R env n s)).2.eng.ck = _
    have h1 : (noteTime R env n s).eng.ck = s.eng.ck := noteTime_ck n s
    generalize noteTime R env n s = s1 at h1
    rw [bind_snd]
    have h3 : ((onEng (handleTimeout env.toEnv n) : P R.St Unit) s1).2.eng.ck = afterCall (.timeout n) s.eng.ck := by
      rw [← h1]; exact handleTimeout_after env.toEnv n s1.eng
    split
    · exact ((progress_of (clock_frame env.toEnv) hs progressFuel _ (fun _ _ => trivial)).1).trans h3
    · exact h3
  | send d => exact (sendM_afr (clock_frame env.toEnv) (clock_app env.toEnv) d trivial s (fun _ _ => trivial)).1
  | close => exact absurd rfl hc
  | poll n =>
    show (pollM R n s).2.eng.ck = _
    unfold pollM
    split
    · rfl
    · exact pollOutput_ck ..

theorem run_ck (hs : ∀ st, AFr (fun _ => True) SameClock (R.step env st)) (cs : List Call) (s : Ses R.St)
    (hc : Call.close ∉ cs) (hr : ∀ x ∈ (run R env s cs).1, ¬ Stops x) :
    (run R env s cs).2.eng.ck = cs.foldl (fun x c => afterCall c x) s.eng.ck := by
  induction cs generalizing s with
  | nil => rfl
  | cons c cs ih =>
    have h1 := call_ck hs s c (fun h => hc (by simp [h]))
    rw [run_fst] at hr
    split at hr
    · rename_i h; exact absurd h (hr _ (by simp))
    · rename_i h
      rw [run_snd, if_neg h, List.foldl_cons, ← h1]
      exact ih _ (fun g => hc (by simp [g])) (fun x hx => hr x (by simp [hx]))
end calls

theorem C13.step_ck (env : PEnv) (st : CSt) : AFr (fun _ => True) SameClock (C13.step env st) := by
  by_cases h1 : st = .awaitApplicationData
  · subst h1; exact awaitApplicationData_fr (clock_frame env.toEnv) (clock_app env.toEnv) _
  · by_cases h2 : st = .halfClosedLocal
    · subst h2; exact (halfClosedLocal_fr (clock_frame env.toEnv) (clock_app env.toEnv).newRecv _ _).afr
    · exact (C13.step_fr (clock_frame env.toEnv) st h1 h2 fun _ => clock_keyFrame env.toEnv).afr

end Verif.E13

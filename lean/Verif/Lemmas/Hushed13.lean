import Verif.Lemmas.Later13
/-!
# What leaves the transcript and the exporter secret of a DTLS 1.3 engine alone
-/
namespace Verif.E13
open Verif Wire Window Timer Aead M
open Verif.E12 (Call)

/-- Transcript and exporter secret are the same. -/
structure Hushed (e e' : Eng) : Prop where
  transcript : e'.transcript = e.transcript
  exporter : e'.exporter = e.exporter

theorem Hushed.refl (e : Eng) : Hushed e e := ⟨rfl, rfl⟩
theorem Hushed.trans {a b c : Eng} (h : Hushed a b) (g : Hushed b c) : Hushed a c := ⟨g.1.trans h.1, g.2.trans h.2⟩
theorem Hushed.after {a b c : Eng} (g : Hushed b c) (h : Hushed a b) : Hushed a c := h.trans g
theorem Hushed.same {e e' : Eng} (h1 : e'.transcript = e.transcript) (h2 : e'.exporter = e.exporter) : Hushed e e' := ⟨h1, h2⟩

/-- `m` leaves transcript and exporter secret alone. -/
def CFr {α : Type} (m : E α) : Prop := ∀ e, Hushed e (m e).2

section
variable {α β : Type}
theorem CFr.pure (a : α) : CFr (M.pure a : E α) := fun e => .refl e
theorem CFr.fail (f : Fault) : CFr (M.fail f : E α) := fun e => .refl e
theorem CFr.panic : CFr (M.panic : E α) := fun e => .refl e
theorem CFr.transient : CFr (M.transient : E α) := fun e => .refl e
theorem CFr.get : CFr (M.get : E Eng) := fun e => .refl e
theorem CFr.bind {m : E α} {f : α → E β} (h : CFr m) (g : ∀ a, CFr (f a)) : CFr (M.bind m f) := by
  intro e
  rw [bind_snd]
  split
  · exact (h e).trans (g _ _)
  · exact h e
theorem CFr.modify {f : Eng → Eng} (h : ∀ e, Hushed e (f e)) : CFr (M.modify f) := fun e => h e
theorem CFr.same {f : Eng → Eng} (h1 : ∀ e, (f e).transcript = e.transcript) (h2 : ∀ e, (f e).exporter = e.exporter) :
    CFr (M.modify f) := fun e => .same (h1 e) (h2 e)
end

section engine
variable (env : Env)

theorem createPlain_hushed (c sv f) : CFr (createPlain c sv f) := by
  intro s
  refine createPlain_ind (motive := fun r => Hushed s r.2) c sv f s (fun _ _ => .refl s)
    (fun _ _ _ => .same rfl rfl) (fun _ _ _ => ?_)
  unfold emitPlain pushWire
  split <;> exact .same rfl rfl

theorem createCipher_hushed (c ep sv f) : CFr (createCipher env c ep sv f) := by
  intro s
  refine createCipher_ind (motive := fun r => Hushed s r.2) env c ep sv f s (fun _ _ => .refl s)
    (fun _ _ _ => .same rfl rfl) (fun _ _ _ _ _ _ _ _ => .same rfl rfl)
    (fun suite tag k ct _ _ _ _ => ?_)
  unfold emitCipher
  dsimp only
  obtain ⟨a1, a2, a3, a4, a5, h1⟩ := countSent_eq (sealedSt (savedAs s sv (entryOf s c ep f)) k ep) (s.slot ep) ep
  rw [h1]
  unfold pushWire
  split <;> exact .same rfl rfl

theorem resendEntry_hushed (x) : CFr (resendEntry env x) := by
  intro s
  unfold resendEntry
  split
  · exact CFr.bind (createPlain_hushed _ _ _) (fun _ => .pure _) s
  · exact CFr.bind (createCipher_hushed env _ _ _ _) (fun _ => .pure _) s

theorem resendLoop_hushed (l) : CFr (resendLoop env l) := by
  induction l with
  | nil => exact .pure _
  | cons x l ih =>
    unfold resendLoop
    split
    · exact .bind ih fun _ => .pure _
    · exact .bind (resendEntry_hushed env x) fun _ => .bind ih fun _ => .pure _

theorem flightResend_hushed : CFr (flightResend env) := by
  intro s
  unfold flightResend
  refine .after (CFr.bind (resendLoop_hushed env s.saved) (fun _ => ?_) _) (.same rfl rfl)
  exact .same (fun _ => rfl) (fun _ => rfl)

theorem flightBegin_hushed (s : Eng) : Hushed s (flightBegin env s) := .same rfl rfl
theorem flightStop_hushed (s : Eng) : Hushed s (flightStop s) := .same rfl rfl
theorem cancelFlights_hushed (s : Eng) : Hushed s (cancelFlights s) := .same rfl rfl
theorem abort_hushed (s : Eng) : Hushed s (abort s) := .same rfl rfl
theorem releaseAppData_hushed (s : Eng) : Hushed s (releaseAppData s) := .same rfl rfl
theorem releaseRetaining_hushed (s : Eng) : Hushed s (releaseRetaining s) := .same rfl rfl

theorem fragmentLoop_hushed (t : UInt8) (seq ep fixed : Nat) (body : Bytes) (n off : Nat) :
    CFr (fragmentLoop env t seq ep fixed body n off) := by
  induction n generalizing off with
  | zero => exact .fail _
  | succ n ih =>
    unfold fragmentLoop
    split
    · refine .bind .get fun s => .bind ?_ fun _ => ?_
      · unfold createHsRecord
        split
        · exact createPlain_hushed _ _ _
        · exact createCipher_hushed env _ _ _ _
      · split
        · exact .pure _
        · exact ih _
    · exact .pure _

theorem advancePeerSeq_hushed : CFr advancePeerSeq := by
  intro s
  unfold advancePeerSeq
  split
  · exact .refl _
  · exact .same rfl rfl

theorem deriveEpochKeys_hushed (x) : CFr (deriveEpochKeys env x) := by
  intro s
  unfold deriveEpochKeys
  repeat' split
  all_goals exact .refl _

theorem deriveNextSecret_hushed (x) : CFr (deriveNextSecret env x) := by
  intro s
  unfold deriveNextSecret
  repeat' split
  all_goals exact .refl _

theorem installHandshakeKeys_hushed (a b) : CFr (installHandshakeKeys env a b) := by
  unfold installHandshakeKeys
  exact .bind .get fun _ => .bind (deriveEpochKeys_hushed env _) fun _ =>
    .bind (.same (fun _ => rfl) (fun _ => rfl)) fun _ =>
    .bind (deriveEpochKeys_hushed env _) fun _ => .same (fun _ => rfl) (fun _ => rfl)

theorem installApplicationKeys_hushed (a b) : CFr (installApplicationKeys env a b) := by
  unfold installApplicationKeys
  refine .bind .get fun _ => .bind (deriveEpochKeys_hushed env _) fun _ =>
    .bind (.same (fun _ => rfl) (fun _ => rfl)) fun _ =>
    .bind (deriveEpochKeys_hushed env _) fun _ => .bind .get fun _ => ?_
  split
  · exact .panic
  · exact .same (fun _ => rfl) (fun _ => rfl)

theorem updateSendKeys_hushed : CFr (updateSendKeys env) := by
  intro s
  unfold updateSendKeys
  split
  · exact .refl _
  · refine .after (CFr.bind (deriveNextSecret_hushed env _) (fun _ =>
      .bind (deriveEpochKeys_hushed env _) fun _ => .bind .get fun _ => ?_) _) (.same rfl rfl)
    split
    · exact .panic
    · exact .modify fun _ => .same rfl rfl

theorem updateRecvKeys_hushed : CFr (updateRecvKeys env) := by
  intro s
  unfold updateRecvKeys
  split
  · exact .refl _
  · refine CFr.bind (deriveNextSecret_hushed env _) (fun _ => ?_) s
    split
    · exact .panic
    · exact .bind (deriveEpochKeys_hushed env _) fun _ =>
        .same (fun _ => rfl) (fun _ => rfl)

theorem createKeyUpdate_hushed (r) : CFr (createKeyUpdate env r) := by
  unfold createKeyUpdate
  refine .bind (.modify (flightBegin_hushed env)) fun _ => .bind .get fun _ => ?_
  split
  · exact .panic
  · exact .bind (.same (fun _ => rfl) (fun _ => rfl)) fun _ =>
      .bind (createCipher_hushed env _ _ _ _) fun _ => .modify fun _ => .same rfl rfl

theorem sendAckInner_hushed (sv) : CFr (sendAckInner env sv) := by
  intro s
  unfold sendAckInner
  split
  · exact .refl _
  · exact .after (createCipher_hushed env _ _ _ _ _) (.same rfl rfl)

theorem sendAck_hushed : CFr (sendAck env) := sendAckInner_hushed env false

theorem sendAckRetransmittable_hushed : CFr (sendAckRetransmittable env) := by
  intro s
  unfold sendAckRetransmittable
  refine .after (sendAckInner_hushed env true _) ?_
  split <;> exact .same rfl rfl

theorem ackHandshakeFlight_hushed (s : Eng) : Hushed s (ackHandshakeFlight s) := by
  unfold ackHandshakeFlight
  split <;> exact .same rfl rfl

theorem ackKeyUpdate_hushed : CFr (ackKeyUpdate env) := by
  intro s
  unfold ackKeyUpdate
  split
  · refine CFr.bind (updateSendKeys_hushed env) (fun _ => ?_) s
    exact .same (fun _ => rfl) (fun _ => rfl)
  · exact .refl _

theorem processAck_hushed (d) : CFr (processAck env d) := by
  intro s
  unfold processAck
  split
  · exact .refl _
  · exact .after (.trans (ackHandshakeFlight_hushed _) (ackKeyUpdate_hushed env _)) (.same rfl rfl)

theorem openRecord_hushed (b f r) : CFr (openRecord env b f r) := by
  intro s
  have h : ∀ k a c p ep n, Hushed s (noteOpened s k a c p ep n) := by
    intro k a c p ep n
    unfold noteOpened Eng.replayUpdate
    split <;> exact .same rfl rfl
  unfold openRecord
  dsimp only
  repeat' split
  all_goals first
    | exact .refl _
    | exact h _ _ _ _ _ _

theorem recordParse_hushed (b) : CFr (recordParse env b) := by
  intro s
  unfold recordParse
  dsimp only
  repeat' split
  all_goals first
    | exact .refl _
    | exact openRecord_hushed env _ _ _ s

theorem parseSlices_hushed (l e acc) : CFr (parseSlices env l e acc) := by
  induction l generalizing acc with
  | nil => cases e <;> first | exact .pure _ | exact .transient
  | cons x l ih =>
    unfold parseSlices
    refine .bind (recordParse_hushed env x) fun r => ?_
    split
    · exact ih _
    · split
      · exact .transient
      · exact ih _

theorem classify_hushed (r) : CFr (classify env r) := by
  intro s
  unfold classify
  repeat' split
  all_goals first
    | exact .refl _
    | exact CFr.bind (processAck_hushed env _) (fun _ => .pure _) s
    | skip
  unfold classifyAlert
  repeat' split
  all_goals first
    | exact .refl _
    | exact .same rfl rfl

theorem classifyAll_hushed (l acc) : CFr (classifyAll env l acc) := by
  induction l generalizing acc with
  | nil => exact .pure _
  | cons r l ih =>
    unfold classifyAll
    refine .bind (classify_hushed env r) fun o => ?_
    split <;> exact ih _

theorem insertHs_hushed (rs) : CFr (insertHs env rs) := by
  intro s
  unfold insertHs
  dsimp only
  repeat' split
  all_goals exact .same rfl rfl

theorem insertBySeq_hushed (rs) : CFr (insertBySeq env rs) := by
  intro s
  unfold insertBySeq
  dsimp only
  repeat' split
  all_goals exact .same rfl rfl

theorem maybeResend_hushed (rs) : CFr (maybeResend env rs) := by
  intro s
  unfold maybeResend
  repeat' split
  all_goals first
    | exact .refl _
    | exact flightResend_hushed env s

theorem insertIncoming_hushed (rs) : CFr (insertIncoming env rs) := by
  intro s
  unfold insertIncoming
  split
  · exact .refl _
  · split
    · exact .refl _
    · split
      · refine CFr.bind (maybeResend_hushed env _) (fun _ => ?_) s
        intro s
        unfold insertHandshakeTail
        repeat' split
        all_goals first
          | exact .refl _
          | exact insertHs_hushed env _ s
      · exact insertBySeq_hushed env _ s

theorem parsePacket_hushed (p) : CFr (parsePacket env p) := by
  unfold parsePacket recordsParse
  refine .bind (.bind (parseSlices_hushed env _ _ _) fun _ => classifyAll_hushed env _ _) fun rs => ?_
  split
  · exact .pure _
  · exact insertIncoming_hushed env _

theorem reparse_hushed (l) : CFr (reparse env l) := by
  induction l with
  | nil => exact .pure _
  | cons b l ih => exact .bind (parsePacket_hushed env b) fun _ => ih

theorem enablePeerEncryption_hushed : CFr (enablePeerEncryption env) := by
  intro s
  unfold enablePeerEncryption
  dsimp only
  split
  · exact .same rfl rfl
  · exact .after (reparse_hushed env _ _) (.same rfl rfl)

theorem scheduleAck_hushed (n) (s : Eng) : Hushed s (scheduleAck n s) := by
  unfold scheduleAck
  repeat' split
  all_goals exact .same rfl rfl

theorem flushAck_hushed (n) : CFr (flushAck env n) := by
  intro s
  unfold flushAck
  dsimp only
  repeat' split
  all_goals first
    | exact .same rfl rfl
    | exact .after (createCipher_hushed env _ _ _ _ _) (.same rfl rfl)

theorem handleTimeout_hushed (n) : CFr (handleTimeout env n) := by
  intro s
  unfold handleTimeout
  have hd : CFr (ackDuty env n) := fun s => .trans (scheduleAck_hushed n s) (flushAck_hushed env n _)
  generalize s.timers.handle s.cfg.handshakeTimeout n (env.jitter s.tick) = x
  obtain ⟨t, fired⟩ := x
  dsimp only
  split
  · exact .same rfl rfl
  · exact .same rfl rfl
  · exact .same rfl rfl
  · exact .after (hd _) (.same rfl rfl)
  · exact .after (CFr.bind (flightResend_hushed env) (fun _ => hd) _) (.same rfl rfl)

theorem pollOutput_hushed (b n) (s : Eng) : Hushed s (pollOutput b n s).2 := by
  have hr : ∀ s, Hushed s (pollRest b n s).2 := by
    intro s
    unfold pollRest
    dsimp only
    refine .trans (scheduleAck_hushed n s) ?_
    repeat' split
    all_goals first
      | exact .same rfl rfl
      | exact .same rfl rfl
  unfold pollOutput
  dsimp only
  refine .trans (b := purge s) (.same rfl rfl) ?_
  repeat' split
  all_goals first
    | exact .refl _
    | exact .same rfl rfl
    | exact hr _

end engine

end Verif.E13

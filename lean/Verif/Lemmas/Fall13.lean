import Verif.Lemmas.Phase13
/-!
# Where the error that makes an auto-sensing server fall back to DTLS 1.2 comes from
-/
namespace Verif.E13
open Verif Wire Window Timer Aead M
open Verif.E12 (Call)

/-- Not the error on which the dispatcher falls back. -/
def NotFb {α : Type} (r : Res α) : Prop := r ≠ .fail (.fatal .dtls12Fallback)

theorem NotFb.ok {α : Type} (a : α) : NotFb (.ok a) := by intro h; cases h
theorem NotFb.panic {α : Type} : NotFb (.fail .panic : Res α) := by intro h; cases h
theorem NotFb.transient {α : Type} : NotFb (.fail .transient : Res α) := by intro h; cases h

/-! ## The engine never returns it -/

def NF {α : Type} (m : E α) : Prop := ∀ e, NotFb (m e).1

theorem bind_notFb {σ α β : Type} {m : M σ α} {f : α → M σ β} {s : σ} (h : NotFb (m s).1)
    (g : ∀ a t, NotFb (f a t).1) : NotFb (M.bind m f s).1 := by
  unfold M.bind M.andThen
  split
  · exact g _ _
  · rename_i x heq
    rw [heq] at h
    intro hx
    apply h
    dsimp only at hx ⊢
    cases hx
    rfl

theorem NF.bind {α β : Type} {m : E α} {f : α → E β} (h : NF m) (g : ∀ a, NF (f a)) : NF (M.bind m f) :=
  fun e => bind_notFb (h e) fun a t => g a t

theorem NF.get : NF (M.get : E Eng) := fun _ => .ok _
theorem NF.pure {α : Type} (a : α) : NF (M.pure a : E α) := fun _ => .ok _
theorem NF.modify (f : Eng → Eng) : NF (M.modify f) := fun _ => .ok _
theorem NF.panic {α : Type} : NF (M.panic : E α) := fun _ => .panic
theorem NF.transient {α : Type} : NF (M.transient : E α) := fun _ => .transient
theorem NF.fail {α : Type} {f : Fault} (h : f ≠ .fatal .dtls12Fallback) : NF (M.fail f : E α) :=
  fun _ h' => by cases h'; exact h rfl

/-- Results written out. -/
macro "outs" : tactic => `(tactic|
  (repeat' split) <;> first | exact NotFb.ok _ | exact NotFb.panic | exact NotFb.transient | (intro h; cases h; done))

theorem createPlain_nf (c b f) : NF (createPlain c b f) := by
  intro e; unfold createPlain; dsimp only; outs

theorem createCipher_nf (env c n b f) : NF (createCipher env c n b f) := by
  intro e; unfold createCipher sealCipher queueCipher; dsimp only; outs

theorem resendEntry_nf (env x) : NF (resendEntry env x) := by
  intro e
  unfold resendEntry
  split
  · exact bind_notFb (createPlain_nf _ _ _ _) fun _ => NF.pure _
  · exact bind_notFb (createCipher_nf _ _ _ _ _ _) fun _ => NF.pure _

theorem resendLoop_nf (env l) : NF (resendLoop env l) := by
  induction l with
  | nil => exact .pure _
  | cons x rest ih =>
    unfold resendLoop
    split
    · exact .bind ih fun _ => .pure _
    · exact .bind (resendEntry_nf _ _) fun _ => .bind ih fun _ => .pure _

theorem flightResend_nf (env) : NF (flightResend env) := fun _ =>
  bind_notFb (resendLoop_nf _ _ _) fun _ => NF.modify _

theorem deriveEpochKeys_nf (env x) : NF (deriveEpochKeys env x) := by
  intro e; unfold deriveEpochKeys; outs
theorem deriveNextSecret_nf (env x) : NF (deriveNextSecret env x) := by
  intro e; unfold deriveNextSecret; outs

theorem installHandshakeKeys_nf (env a b) : NF (installHandshakeKeys env a b) :=
  .bind .get fun _ => .bind (deriveEpochKeys_nf _ _) fun _ => .bind (.modify _) fun _ =>
    .bind (deriveEpochKeys_nf _ _) fun _ => .modify _

theorem installApplicationKeys_nf (env a b) : NF (installApplicationKeys env a b) :=
  .bind .get fun _ => .bind (deriveEpochKeys_nf _ _) fun _ => .bind (.modify _) fun _ =>
    .bind (deriveEpochKeys_nf _ _) fun _ => .bind .get fun _ => by
      split
      · exact .panic
      · exact .modify _

theorem updateSendKeys_nf (env) : NF (updateSendKeys env) := by
  intro e
  unfold updateSendKeys
  split
  · intro h; cases h
  · exact bind_notFb (deriveNextSecret_nf _ _ _) fun _ => NF.bind (deriveEpochKeys_nf _ _) fun _ =>
      .bind .get fun _ => by
        split
        · exact .panic
        · exact .modify _

theorem updateRecvKeys_nf (env) : NF (updateRecvKeys env) := by
  intro e
  unfold updateRecvKeys
  split
  · intro h; cases h
  · refine bind_notFb (deriveNextSecret_nf _ _ _) fun _ => ?_
    split
    · exact NF.panic
    · exact NF.bind (deriveEpochKeys_nf _ _) fun _ => .modify _

theorem createKeyUpdate_nf (env b) : NF (createKeyUpdate env b) :=
  .bind (.modify _) fun _ => .bind .get fun _ => by
    split
    · exact .panic
    · exact .bind (.modify _) fun _ => .bind (createCipher_nf _ _ _ _ _) fun _ => .modify _

theorem sendAckInner_nf (env b) : NF (sendAckInner env b) := by
  intro e
  unfold sendAckInner
  split
  · exact .ok _
  · exact createCipher_nf _ _ _ _ _ _

theorem sendAckRetransmittable_nf (env) : NF (sendAckRetransmittable env) := fun _ => sendAckInner_nf _ _ _

theorem processAck_nf (env d) : NF (processAck env d) := by
  intro e
  unfold processAck
  split
  · exact .ok _
  · unfold ackKeyUpdate
    split
    · exact bind_notFb (updateSendKeys_nf _ _) fun _ => NF.modify _
    · exact .ok _

theorem recordParse_nf (env b) : NF (recordParse env b) := by
  intro e
  unfold recordParse openRecord
  dsimp only
  outs

theorem parseSlices_nf (env l x acc) : NF (parseSlices env l x acc) := by
  induction l generalizing acc with
  | nil =>
    unfold parseSlices
    split
    · exact .transient
    · exact .pure _
    · rename_i h; cases h
  | cons b rest ih =>
    unfold parseSlices
    refine .bind (recordParse_nf _ _) fun r => ?_
    repeat' split
    · exact ih _
    · exact .transient
    · exact ih _

theorem classify_nf (env r) : NF (classify env r) := by
  intro e
  unfold classify
  repeat' split
  · exact .ok _
  · exact .ok _
  · exact bind_notFb (processAck_nf _ _ _) fun _ => NF.pure _
  · unfold classifyAlert; outs
  · exact .ok _
  · exact .ok _

theorem classifyAll_nf (env l acc) : NF (classifyAll env l acc) := by
  induction l generalizing acc with
  | nil => exact .pure _
  | cons r rest ih =>
    unfold classifyAll
    refine .bind (classify_nf _ _) fun r => ?_
    split <;> exact ih _

theorem insertIncoming_nf (env rs) : NF (insertIncoming env rs) := by
  intro e
  unfold insertIncoming
  repeat' split
  · intro h; cases h
  · exact .ok _
  · refine bind_notFb ?_ fun _ e => ?_
    · unfold maybeResend
      repeat' split
      · exact flightResend_nf _ _
      · exact .ok _
      · exact .ok _
    · unfold insertHandshakeTail insertHs
      dsimp only
      outs
  · unfold insertBySeq
    dsimp only
    outs

theorem parsePacket_nf (env p) : NF (parsePacket env p) :=
  .bind (.bind (parseSlices_nf _ _ _ _) fun _ => classifyAll_nf _ _ _) fun _ => by
    split
    · exact .pure _
    · exact insertIncoming_nf _ _

theorem reparse_nf (env l) : NF (reparse env l) := by
  induction l with
  | nil => exact .pure _
  | cons b rest ih => exact .bind (parsePacket_nf _ _) fun _ => ih

theorem enablePeerEncryption_nf (env) : NF (enablePeerEncryption env) := by
  intro e
  unfold enablePeerEncryption
  dsimp only
  split
  · exact .ok _
  · exact reparse_nf _ _ _

theorem nextHandshakeWith_nf (env a b t) : NF (nextHandshakeWith env a b t) := by
  intro e
  unfold nextHandshakeWith defragment
  dsimp only
  outs

theorem advancePeerSeq_nf : NF advancePeerSeq := by
  intro e; unfold advancePeerSeq; outs

theorem fragmentLoop_nf (env t q n x b fuel off) : NF (fragmentLoop env t q n x b fuel off) := by
  induction fuel generalizing off with
  | zero => exact .fail (by intro h; cases h)
  | succ fuel ih =>
    unfold fragmentLoop
    split
    · refine .bind .get fun _ => .bind ?_ fun _ => ?_
      · unfold createHsRecord
        split
        · exact createPlain_nf _ _ _
        · exact createCipher_nf _ _ _ _ _
      · split
        · exact .pure _
        · exact ih _
    · exact .pure _

theorem createHandshake_nf (env t b) : NF (createHandshake env t b) := by
  intro e
  unfold createHandshake
  dsimp only
  split
  · exact .panic
  · split
    · exact .panic
    · exact fragmentLoop_nf _ _ _ _ _ _ _ _ _

theorem replaceTranscript_nf (env n) : NF (replaceTranscript env n) := by
  intro e; unfold replaceTranscript; dsimp only; outs

theorem ackDuty_nf (env n) : NF (ackDuty env n) := by
  intro e
  unfold ackDuty flushAck
  dsimp only
  repeat' split
  all_goals first
    | exact .ok _
    | exact createCipher_nf _ _ _ _ _ _

theorem handleTimeout_nf (env n) : NF (handleTimeout env n) := by
  intro e
  unfold handleTimeout
  generalize e.timers.handle e.cfg.handshakeTimeout n (env.jitter e.tick) = r
  obtain ⟨t, f⟩ := r
  cases f
  · exact .ok _
  · exact ackDuty_nf _ _ _
  · exact bind_notFb (flightResend_nf _ _) fun _ => ackDuty_nf _ _
  · intro h; cases h
  · intro h; cases h

/-! ## Sessions -/

section
variable {St : Type} {α β : Type}

/-- What the dispatcher reads of a session stays. -/
def Kp (m : P St α) : Prop :=
  ∀ s, (m s).2.autoMode = s.autoMode ∧ (m s).2.retained = s.retained ∧ (m s).2.lastNow = s.lastNow ∧
    (m s).2.st = s.st

/-- And the error does not arise. -/
def Pl (m : P St α) : Prop := (∀ s, NotFb (m s).1) ∧ Kp m

theorem Kp.bind {m : P St α} {f : α → P St β} (h : Kp m) (g : ∀ a, Kp (f a)) : Kp (M.bind m f) := by
  intro s
  rw [bind_snd]
  split
  · obtain ⟨h1, h2, h3, h4⟩ := h s
    obtain ⟨g1, g2, g3, g4⟩ := g _ (m s).2
    exact ⟨g1.trans h1, g2.trans h2, g3.trans h3, g4.trans h4⟩
  · exact h s

theorem Pl.bind {m : P St α} {f : α → P St β} (h : Pl m) (g : ∀ a, Pl (f a)) : Pl (M.bind m f) :=
  ⟨fun s => bind_notFb (h.1 s) fun a t => (g a).1 t, h.2.bind fun a => (g a).2⟩

theorem Kp.rfl_ {m : P St α} (h : ∀ s, (m s).2 = s) : Kp m := fun s => by
  rw [h s]; exact ⟨rfl, rfl, rfl, rfl⟩

theorem Pl.pure (a : α) : Pl (M.pure a : P St α) := ⟨fun _ => .ok _, .rfl_ fun _ => rfl⟩
theorem Pl.get : Pl (M.get : P St (Ses St)) := ⟨fun _ => .ok _, .rfl_ fun _ => rfl⟩
theorem Pl.panic : Pl (M.panic : P St α) := ⟨fun _ => .panic, .rfl_ fun _ => rfl⟩
theorem Pl.transient : Pl (M.transient : P St α) := ⟨fun _ => .transient, .rfl_ fun _ => rfl⟩
theorem Pl.fatal {e : Error} (h : e ≠ .dtls12Fallback) : Pl (M.fatal e : P St α) :=
  ⟨fun _ g => by cases g; exact h rfl, .rfl_ fun _ => rfl⟩
theorem Pl.modify {f : Ses St → Ses St} (h1 : ∀ s, (f s).autoMode = s.autoMode)
    (h2 : ∀ s, (f s).retained = s.retained) (h3 : ∀ s, (f s).lastNow = s.lastNow)
    (h4 : ∀ s, (f s).st = s.st) : Pl (M.modify f) := ⟨fun _ => .ok _, fun s => ⟨h1 s, h2 s, h3 s, h4 s⟩⟩
theorem Pl.onEng {m : E α} (h : NF m) : Pl (E13.onEng m : P St α) :=
  ⟨fun s => h s.eng, fun _ => ⟨rfl, rfl, rfl, rfl⟩⟩
theorem Pl.onEng' (f : Eng → Eng) : Pl (E13.onEng' f : P St Unit) := ⟨fun _ => .ok _, fun _ => ⟨rfl, rfl, rfl, rfl⟩⟩
theorem Pl.setSuite (n : Nat) : Pl (E13.setSuite n : P St Unit) := .onEng' _
theorem Pl.drawTick : Pl (E13.drawTick : P St Nat) := ⟨fun _ => .ok _, fun _ => ⟨rfl, rfl, rfl, rfl⟩⟩
theorem Pl.check (c : Bool) {e : Error} (h : e ≠ .dtls12Fallback) : Pl (E13.check c e : P St Unit) := by
  unfold E13.check; split
  · exact .pure _
  · exact .fatal h
theorem Pl.orFatal (o : Option α) {e : Error} (h : e ≠ .dtls12Fallback) : Pl (E13.orFatal o e : P St α) := by
  cases o
  · exact .fatal h
  · exact .pure _
theorem Pl.orPanic (o : Option α) : Pl (E13.orPanic o : P St α) := by
  cases o
  · exact .panic
  · exact .pure _
theorem Pl.orTransient (o : Option α) : Pl (E13.orTransient o : P St α) := by
  cases o
  · exact .transient
  · exact .pure _

/-- Prove `Pl` of a function by its syntax. -/
macro "pl" : tactic => `(tactic|
  repeat' first
    | with_reducible exact Pl.pure _
    | with_reducible exact Pl.get
    | with_reducible exact Pl.fatal (by decide)
    | with_reducible exact Pl.transient
    | with_reducible exact Pl.panic
    | with_reducible exact Pl.check _ (by decide)
    | with_reducible exact Pl.orFatal _ (by decide)
    | with_reducible exact Pl.orPanic _
    | with_reducible exact Pl.orTransient _
    | with_reducible exact Pl.onEng (createHandshake_nf _ _ _)
    | with_reducible exact Pl.onEng (nextHandshakeWith_nf _ _ _ _)
    | with_reducible exact Pl.onEng advancePeerSeq_nf
    | with_reducible exact Pl.onEng (replaceTranscript_nf _ _)
    | with_reducible exact Pl.onEng (sendAckRetransmittable_nf _)
    | with_reducible exact Pl.onEng (sendAckInner_nf _ _)
    | with_reducible exact Pl.onEng (installHandshakeKeys_nf _ _ _)
    | with_reducible exact Pl.onEng (installApplicationKeys_nf _ _ _)
    | with_reducible exact Pl.onEng (enablePeerEncryption_nf _)
    | with_reducible exact Pl.onEng (createKeyUpdate_nf _ _)
    | with_reducible exact Pl.onEng (updateRecvKeys_nf _)
    | with_reducible exact Pl.onEng (createCipher_nf _ _ _ _ _)
    | with_reducible exact Pl.onEng' _
    | with_reducible exact Pl.setSuite _
    | with_reducible exact Pl.drawTick
    | with_reducible refine Pl.modify ?_ ?_ ?_ ?_ <;> exact fun _ => rfl
    | assumption
    | with_reducible refine Pl.bind ?_ (fun _ => ?_)
    | split)

variable {env : PEnv}

theorem nextHandshake_pl (t : UInt8) : Pl (onEng (nextHandshake env.toEnv t) : P St (Option Body)) :=
  .onEng (nextHandshakeWith_nf _ _ _ _)

theorem computeVerify_pl (b : Bytes) : Pl (computeVerify env b : P St Bytes) := by
  unfold computeVerify; simp only [bind_eq]; pl

theorem installHandshake_pl (b : Bytes) : Pl (installHandshake env b : P St Unit) := by
  unfold installHandshake; simp only [bind_eq]; pl

theorem installApplication_pl : Pl (installApplication env : P St Unit) := by
  unfold installApplication; simp only [bind_eq]; pl

theorem certificateVerifyBody_pl (b : Bytes) : Pl (certificateVerifyBody env b : P St Bytes) := by
  unfold certificateVerifyBody; simp only [bind_eq, pure_eq]; pl

theorem awaitCertificateVerify_pl (he : ∀ c n, env.schemeError c n ≠ some .dtls12Fallback) (l : Bytes) (a b : St) :
    Pl (awaitCertificateVerify env l a b) := by
  have h1 := nextHandshake_pl (St := St) (env := env) mtCertificateVerify
  unfold awaitCertificateVerify; simp only [bind_eq, pure_eq]; pl
  rename_i h
  refine .fatal fun h' => ?_
  rw [h'] at h
  exact he _ _ h

theorem announceConnected_pl (f : Eng → Eng) (a : St) : Pl (announceConnected env f a) := by
  unfold announceConnected; simp only [bind_eq, pure_eq]; pl

theorem drainLoop_pl (n : Nat) (l : List Bytes) : Pl (drainLoop env n l : P St Unit) := by
  induction l with
  | nil => exact .pure _
  | cons d rest ih => unfold drainLoop sendApp; simp only [bind_eq]; pl

theorem drainQueued_pl : Pl (drainQueued env : P St Unit) :=
  ⟨fun s => (drainLoop_pl (env := env) s.eng.appEpoch s.queued).1 { s with queued := [] },
   fun s => (drainLoop_pl (env := env) s.eng.appEpoch s.queued).2 { s with queued := [] }⟩

theorem awaitApplicationData_pl (a : St) : Pl (awaitApplicationData env a) := by
  have h1 := drainQueued_pl (St := St) (env := env)
  unfold awaitApplicationData autoKeyUpdate respondKeyUpdate takeKeyUpdate sendAck
  simp only [bind_eq, pure_eq]; pl

theorem halfClosedLocal_pl (a b : St) : Pl (halfClosedLocal env a b) := by
  unfold halfClosedLocal; simp only [bind_eq, pure_eq]; pl

end

namespace S13
variable {env : PEnv}

theorem clientExtensions_pl (l x) : Pl (clientExtensions env l x) := by
  induction l generalizing x with
  | nil => exact .pure _
  | cons e rest ih =>
    obtain ⟨t, d⟩ := e
    unfold clientExtensions
    simp only [bind_eq]
    pl
    all_goals exact ih _

theorem sendRetry_pl (a b c) : Pl (sendRetry env a b c) := by
  unfold sendRetry; simp only [bind_eq, pure_eq]; pl

theorem acceptClientHello_pl (a b c) : Pl (acceptClientHello env a b c) := by
  unfold acceptClientHello; simp only [bind_eq, pure_eq]; pl

theorem chooseShare_pl (a b c) : Pl (chooseShare env a b c) := by
  have h1 := fun a b c => sendRetry_pl (env := env) a b c
  have h2 := fun a b c => acceptClientHello_pl (env := env) a b c
  unfold chooseShare; simp only [bind_eq]; pl
  · exact h2 _ _ _
  · exact h1 _ _ _

theorem checkCookie_pl (a b c d) : Pl (checkCookie env a b c d) := by
  have h1 := fun a b c => sendRetry_pl (env := env) a b c
  have h2 := fun a b c => chooseShare_pl (env := env) a b c
  unfold checkCookie; simp only [bind_eq, pure_eq]; pl
  all_goals first | exact h1 _ _ _ | exact h2 _ _ _

theorem step_pl' (st : SSt) (h : st ≠ .awaitClientHello) (h' : st ≠ .awaitCertificateVerify) :
    Pl (S13.step env st) := by
  have h1 := fun t => nextHandshake_pl (St := SSt) (env := env) t
  have h2 := fun b => computeVerify_pl (St := SSt) (env := env) b
  have h3 := fun b => installHandshake_pl (St := SSt) (env := env) b
  have h4 := installApplication_pl (St := SSt) (env := env)
  have h5 := fun b => certificateVerifyBody_pl (St := SSt) (env := env) b
  have h6 := fun f a => announceConnected_pl (St := SSt) (env := env) f a
  cases st
  case awaitClientHello => exact absurd rfl h
  case awaitCertificateVerify => exact absurd rfl h'
  case awaitApplicationData => exact awaitApplicationData_pl _
  case halfClosedLocal => exact halfClosedLocal_pl _ _
  case closed => exact .pure _
  all_goals
    unfold step
    first
      | (unfold sendServerHello; simp only [bind_eq, pure_eq]; pl; exact h3 _; done)
      | (unfold sendEncryptedExtensions; simp only [bind_eq, pure_eq]; pl; done)
      | (unfold sendCertificateRequest; simp only [bind_eq, pure_eq]; pl; done)
      | (unfold sendCertificate; simp only [bind_eq, pure_eq]; pl; done)
      | (unfold sendCertificateVerify; simp only [bind_eq, pure_eq]; pl; exact h5 _; done)
      | (unfold sendFinished; simp only [bind_eq, pure_eq]; pl; exact h2 _; done)
      | (unfold awaitCertificate; simp only [bind_eq, pure_eq]; pl; exact h1 _; done)
      | (unfold awaitFinished; simp only [bind_eq, pure_eq]; pl
         all_goals first | exact h1 _ | exact h2 _ | exact h6 _ _
         done)

theorem step_pl (he : ∀ c n, env.schemeError c n ≠ some .dtls12Fallback) (st : SSt) (h : st ≠ .awaitClientHello) :
    Pl (S13.step env st) := by
  by_cases h' : st = .awaitCertificateVerify
  · rw [h']; exact awaitCertificateVerify_pl he _ _ _
  · exact step_pl' st h h'

theorem clientHello_kp (a b) : Kp (clientHello env a b) := by
  unfold clientHello
  simp only [bind_eq]
  refine .bind (Pl.check _ (by decide)).2 fun _ => .bind (Pl.check _ (by decide)).2 fun _ =>
    .bind (Pl.check _ (by decide)).2 fun _ => .bind (clientExtensions_pl _ _).2 fun _ => .bind Pl.get.2 fun _ =>
    .bind ?_ fun _ => .bind (Pl.orFatal _ (by decide)).2 fun _ =>
    .bind (Pl.modify (fun _ => rfl) (fun _ => rfl) (fun _ => rfl) (fun _ => rfl)).2 fun _ => (checkCookie_pl _ _ _ _).2
  exact .rfl_ fun s => by unfold check; split <;> rfl

theorem awaitClientHello_kp : Kp (awaitClientHello env) := by
  unfold awaitClientHello
  simp only [bind_eq]
  refine .bind Pl.get.2 fun _ => .bind (Pl.onEng (nextHandshakeWith_nf _ _ _ _)).2 fun m => ?_
  split
  · exact (Pl.pure _).2
  · exact clientHello_kp _ _
  · exact Pl.panic.2

theorem awaitCertificateVerify_kp {St : Type} (l : Bytes) (a b : St) : Kp (awaitCertificateVerify env l a b) := by
  unfold awaitCertificateVerify
  simp only [bind_eq]
  refine .bind Pl.get.2 fun _ => .bind (Pl.orPanic _).2 fun _ => .bind (nextHandshake_pl _).2 fun m => ?_
  split
  · exact (Pl.pure _).2
  · refine .bind (Pl.check _ (by decide)).2 fun _ => .bind (Pl.check _ (by decide)).2 fun _ =>
      .bind (Pl.orFatal _ (by decide)).2 fun _ => ?_
    split
    · exact .rfl_ fun _ => rfl
    · exact .bind (Pl.check _ (by decide)).2 fun _ => .bind (Pl.onEng advancePeerSeq_nf).2 fun _ => (Pl.pure _).2
  · exact Pl.panic.2

theorem step_kp (st : SSt) : Kp (S13.step env st) := by
  by_cases h : st = .awaitClientHello
  · rw [h]; exact awaitClientHello_kp
  by_cases h' : st = .awaitCertificateVerify
  · rw [h']; exact awaitCertificateVerify_kp _ _ _
  · exact (step_pl' st h h').2

end S13

/-! ## Calls -/

theorem progress_succ (R : Role) (env : PEnv) (fuel : Nat) (s : Ses R.St) :
    progress R env (fuel + 1) s = match R.step env s.st s with
      | (.ok new, s') => if s.st = new then (.ok (), s') else progress R env fuel { s' with st := new }
      | (.fail f, s') => (.fail f, s') := by
  show M.bind (R.step env s.st) _ s = _
  unfold M.bind M.andThen
  cases R.step env s.st s with
  | mk r s' =>
    cases r with
    | fail f => rfl
    | ok new => dsimp only; split <;> rfl

theorem progress_kp {R : Role} {env : PEnv} (hk : ∀ st, Kp (R.step env st)) (fuel : Nat) (s : Ses R.St) :
    (progress R env fuel s).2.autoMode = s.autoMode ∧ (progress R env fuel s).2.retained = s.retained ∧
    (progress R env fuel s).2.lastNow = s.lastNow := by
  induction fuel generalizing s with
  | zero => exact ⟨rfl, rfl, rfl⟩
  | succ fuel ih =>
    obtain ⟨h1, h2, h3, _⟩ := hk s.st s
    rw [progress_succ]
    split
    · rename_i new s' heq
      rw [heq] at h1 h2 h3
      split
      · exact ⟨h1, h2, h3⟩
      · obtain ⟨g1, g2, g3⟩ := ih { s' with st := new }
        exact ⟨g1.trans h1, g2.trans h2, g3.trans h3⟩
    · rename_i f s' heq
      rw [heq] at h1 h2 h3
      exact ⟨h1, h2, h3⟩

/-- Away from the first state the error does not arise. -/
theorem progress_late {R : Role} {env : PEnv} (hn : ∀ st, R.first st = false → ∀ s, NotFb (R.step env st s).1)
    (hr : ∀ st, R.first st = false → Gives (fun st => R.first st = false) (R.step env st))
    (fuel : Nat) (s : Ses R.St) (h : R.first s.st = false) : NotFb (progress R env fuel s).1 := by
  induction fuel generalizing s with
  | zero => intro h; cases h
  | succ fuel ih =>
    rw [progress_succ]
    have h1 := hn s.st h s
    have h2 := hr s.st h s
    split
    · rename_i new s' heq
      rw [heq] at h2
      split
      · exact .ok _
      · exact ih _ (h2 _ rfl)
    · rename_i f s' heq
      rw [heq] at h1
      intro h'
      dsimp only at h' h1
      cases h'
      exact h1 rfl

/-- The loop returns the error exactly if its first step does. -/
theorem progress_fb {R : Role} {env : PEnv} (hn : ∀ st, R.first st = false → ∀ s, NotFb (R.step env st s).1)
    (hr : ∀ st, R.first st = false → Gives (fun st => R.first st = false) (R.step env st))
    (h1 : ∀ st st', R.first st = true → R.first st' = true → st = st') (fuel : Nat) (s : Ses R.St) :
    (progress R env (fuel + 1) s).1 = .fail (.fatal .dtls12Fallback) ↔
    R.first s.st = true ∧ (R.step env s.st s).1 = .fail (.fatal .dtls12Fallback) := by
  by_cases hf : R.first s.st = true
  · rw [progress_succ]
    split
    · rename_i new s' heq
      rw [heq]
      constructor
      · intro h
        split at h
        · cases h
        · rename_i hne
          exact absurd h (progress_late hn hr fuel _ (by
            cases hb : R.first new with
            | false => rfl
            | true => exact absurd (h1 _ _ hf hb) hne))
      · rintro ⟨_, h⟩; cases h
    · rename_i f s' heq
      rw [heq]
      exact ⟨fun h => ⟨hf, by cases h; rfl⟩, fun h => by have := h.2; cases this; rfl⟩
  · have hf : R.first s.st = false := by simpa using hf
    constructor
    · intro h; exact absurd h (progress_late hn hr _ s hf)
    · rintro ⟨h, _⟩; rw [h] at hf; cases hf

/-! ## The ClientHello of a client without DTLS 1.3 -/

namespace S13
variable {env : PEnv}

/-- The server can read this extension. -/
structure ExtOk (env : PEnv) (t : Nat) (d : Bytes) : Prop where
  versions : t = 43 → ∃ vs, env.parseClientVersions d = some vs
  shares : t = 51 → ∃ ks, env.parseClientShares d = some ks ∧ ks.length ≤ 4
  groups : t = 10 → ∃ gs, env.parseGroups d = some gs
  srtp : t = 14 → ∃ ps, env.parseUseSrtp d = some ps
  cookie : t = 44 → ∃ c, env.parseCookie d = some c ∧ c.length ≤ 32

/-- A supported_versions extension lists DTLS 1.3. -/
def Offers13 (env : PEnv) (exts : List (Nat × Bytes)) : Prop :=
  ∃ d vs, (43, d) ∈ exts ∧ env.parseClientVersions d = some vs ∧ verDtls13 ∈ vs

theorem offers_cons (t : Nat) (d : Bytes) (l : List (Nat × Bytes)) :
    Offers13 env ((t, d) :: l) ↔
    (t = 43 ∧ ∃ vs, env.parseClientVersions d = some vs ∧ verDtls13 ∈ vs) ∨ Offers13 env l := by
  unfold Offers13
  constructor
  · rintro ⟨d', vs, hm, h⟩
    rcases List.mem_cons.mp hm with hm | hm
    · cases hm; exact .inl ⟨rfl, vs, h⟩
    · exact .inr ⟨d', vs, hm, h⟩
  · rintro (⟨rfl, vs, h⟩ | ⟨d', vs, hm, h⟩)
    · exact ⟨d, vs, .head _, h⟩
    · exact ⟨d', vs, .tail _ hm, h⟩

/-- The extension loop: it succeeds exactly on readable extensions and finds out whether DTLS 1.3 is
offered. -/
theorem clientExtensions_spec (l : List (Nat × Bytes)) (x : ChExts) (s : Ses SSt) :
    (∃ x', clientExtensions env l x s = (.ok x', s) ∧ (∀ e ∈ l, ExtOk env e.1 e.2) ∧
      (x'.version = true ↔ x.version = true ∨ Offers13 env l)) ∨
    (∃ f, clientExtensions env l x s = (.fail f, s) ∧ f ≠ .fatal .dtls12Fallback ∧ ¬ ∀ e ∈ l, ExtOk env e.1 e.2) := by
  induction l generalizing x with
  | nil => exact .inl ⟨x, rfl, by simp, by simp [Offers13]⟩
  | cons e rest ih =>
    obtain ⟨t, d⟩ := e
    -- an extension that can be read
    have good : ∀ x1, clientExtensions env ((t, d) :: rest) x s = clientExtensions env rest x1 s →
        ExtOk env t d → (x1.version = true ↔ x.version = true ∨
          (t = 43 ∧ ∃ vs, env.parseClientVersions d = some vs ∧ verDtls13 ∈ vs)) →
        (∃ x', clientExtensions env ((t, d) :: rest) x s = (.ok x', s) ∧ (∀ e ∈ (t, d) :: rest, ExtOk env e.1 e.2) ∧
          (x'.version = true ↔ x.version = true ∨ Offers13 env ((t, d) :: rest))) ∨
        (∃ f, clientExtensions env ((t, d) :: rest) x s = (.fail f, s) ∧ f ≠ .fatal .dtls12Fallback ∧
          ¬ ∀ e ∈ (t, d) :: rest, ExtOk env e.1 e.2) := by
      intro x1 h1 h2 h3
      rw [h1]
      rcases ih x1 with ⟨x', g1, g2, g3⟩ | ⟨f, g1, g2, g3⟩
      · refine .inl ⟨x', g1, ?_, ?_⟩
        · intro e he
          rcases List.mem_cons.mp he with rfl | he
          · exact h2
          · exact g2 e he
        · rw [g3, h3, offers_cons, or_assoc]
      · exact .inr ⟨f, g1, g2, fun h => g3 fun e he => h e (.tail _ he)⟩
    -- and one that cannot
    have bad : ∀ f, clientExtensions env ((t, d) :: rest) x s = (.fail f, s) → f ≠ .fatal .dtls12Fallback →
        ¬ ExtOk env t d →
        (∃ x', clientExtensions env ((t, d) :: rest) x s = (.ok x', s) ∧ (∀ e ∈ (t, d) :: rest, ExtOk env e.1 e.2) ∧
          (x'.version = true ↔ x.version = true ∨ Offers13 env ((t, d) :: rest))) ∨
        (∃ f, clientExtensions env ((t, d) :: rest) x s = (.fail f, s) ∧ f ≠ .fatal .dtls12Fallback ∧
          ¬ ∀ e ∈ (t, d) :: rest, ExtOk env e.1 e.2) :=
      fun f h1 h2 h3 => .inr ⟨f, h1, h2, fun h => h3 (h (t, d) (.head _))⟩
    by_cases t43 : t = 43
    · subst t43
      cases hp : env.parseClientVersions d with
      | none =>
        exact bad .transient (by simp [clientExtensions, bind_eq, M.bind, M.andThen, orTransient, hp, M.transient, M.fail])
          (by simp) (fun h => by obtain ⟨_, h⟩ := h.versions rfl; simp [hp] at h)
      | some vs =>
        refine good { x with version := x.version || vs.contains verDtls13 }
          (by simp [clientExtensions, bind_eq, M.bind, M.andThen, orTransient, hp, M.pure])
          ⟨fun _ => ⟨vs, hp⟩, by simp, by simp, by simp, by simp⟩ ?_
        simp [hp]
    by_cases t51 : t = 51
    · subst t51
      cases hp : env.parseClientShares d with
      | none =>
        exact bad .transient (by simp [clientExtensions, bind_eq, M.bind, M.andThen, orTransient, hp, M.transient, M.fail])
          (by simp) (fun h => by obtain ⟨_, h, _⟩ := h.shares rfl; simp [hp] at h)
      | some ks =>
        by_cases hl : ks.length > 4
        · exact bad .transient (by simp [clientExtensions, bind_eq, M.bind, M.andThen, orTransient, hp, M.pure, hl, M.transient, M.fail])
            (by simp) (fun h => by obtain ⟨_, h, h'⟩ := h.shares rfl; rw [hp] at h; cases h; omega)
        · exact good { x with shares := some ks }
            (by simp [clientExtensions, bind_eq, M.bind, M.andThen, orTransient, hp, M.pure, hl])
            ⟨by simp, fun _ => ⟨ks, hp, by omega⟩, by simp, by simp, by simp⟩ (by simp)
    by_cases t10 : t = 10
    · subst t10
      cases hp : env.parseGroups d with
      | none =>
        exact bad .transient (by simp [clientExtensions, bind_eq, M.bind, M.andThen, orTransient, hp, M.transient, M.fail])
          (by simp) (fun h => by obtain ⟨_, h⟩ := h.groups rfl; simp [hp] at h)
      | some gs =>
        exact good { x with groups := some gs }
          (by simp [clientExtensions, bind_eq, M.bind, M.andThen, orTransient, hp, M.pure])
          ⟨by simp, by simp, fun _ => ⟨gs, hp⟩, by simp, by simp⟩ (by simp)
    by_cases t14 : t = 14
    · subst t14
      cases hp : env.parseUseSrtp d with
      | none =>
        exact bad .transient (by simp [clientExtensions, bind_eq, M.bind, M.andThen, orTransient, hp, M.transient, M.fail])
          (by simp) (fun h => by obtain ⟨_, h⟩ := h.srtp rfl; simp [hp] at h)
      | some ps =>
        exact good { x with srtp := some ps }
          (by simp [clientExtensions, bind_eq, M.bind, M.andThen, orTransient, hp, M.pure])
          ⟨by simp, by simp, by simp, fun _ => ⟨ps, hp⟩, by simp⟩ (by simp)
    by_cases t44 : t = 44
    · subst t44
      cases hp : env.parseCookie d with
      | none =>
        exact bad .transient (by simp [clientExtensions, bind_eq, M.bind, M.andThen, orTransient, hp, M.transient, M.fail])
          (by simp) (fun h => by obtain ⟨_, h, _⟩ := h.cookie rfl; simp [hp] at h)
      | some c =>
        by_cases hl : c.length ≤ 32
        · exact good { x with cookie := some c }
            (by simp [clientExtensions, bind_eq, M.bind, M.andThen, orTransient, hp, M.pure, check, hl])
            ⟨by simp, by simp, by simp, by simp, fun _ => ⟨c, hp, hl⟩⟩ (by simp)
        · exact bad (.fatal .security)
            (by simp [clientExtensions, bind_eq, M.bind, M.andThen, orTransient, hp, M.pure, check, hl, M.fatal, M.fail])
            (by simp) (fun h => by obtain ⟨_, h, h'⟩ := h.cookie rfl; rw [hp] at h; cases h; exact hl h')
    exact good x (by simp [clientExtensions, t43, t51, t10, t14, t44])
      ⟨fun h => absurd h t43, fun h => absurd h t51, fun h => absurd h t10, fun h => absurd h t14,
        fun h => absurd h t44⟩ (by simp [t43])

/-- A ClientHello that is well-formed for DTLS 1.2 and does not offer DTLS 1.3. -/
structure Old (env : PEnv) (ch : ClientHello) : Prop where
  cookie : ch.cookie = []
  version : ch.version = verDtls12
  compression : ch.compressions.contains 0 = true
  exts : ∀ e ∈ ch.exts, ExtOk env e.1 e.2
  no13 : ¬ Offers13 env ch.exts

theorem bind_check {St α} (b : Bool) (e : Error) (k : Unit → P St α) (s : Ses St) :
    M.bind (check b e) k s = if b = true then k () s else (.fail (.fatal e), s) := by
  cases b <;> rfl

theorem clientHello_fb (len : Nat) (ch : ClientHello) (s : Ses SSt) :
    (clientHello env len ch s).1 = .fail (.fatal .dtls12Fallback) ↔ s.autoMode = true ∧ Old env ch := by
  unfold clientHello
  simp only [bind_eq]
  rw [bind_check]
  split
  case isFalse h1 => exact ⟨fun h => (by cases h), fun h => absurd h.2.cookie (by simpa using h1)⟩
  rename_i h1
  rw [bind_check]
  split
  case isFalse h2 => exact ⟨fun h => (by cases h), fun h => absurd h.2.version (by simpa using h2)⟩
  rename_i h2
  rw [bind_check]
  split
  case isFalse h3 => exact ⟨fun h => (by cases h), fun h => absurd h.2.compression h3⟩
  rename_i h3
  show (M.bind (clientExtensions env ch.exts _) _ s).1 = _ ↔ _
  rcases clientExtensions_spec (env := env) ch.exts
    { version := false, shares := none, groups := none, srtp := none, cookie := none } s with
    ⟨x, g1, g2, g3⟩ | ⟨f, g1, g2, g3⟩
  · rw [show ∀ k : ChExts → M (Ses SSt) SSt, M.bind (clientExtensions env ch.exts _) k s = k x s from
      fun k => by simp only [M.bind, M.andThen, g1]]
    show (M.bind (check x.version (if s.autoMode = true then Error.dtls12Fallback else Error.security)) _ s).1 = _ ↔ _
    rw [bind_check]
    split
    · rename_i h4
      refine ⟨fun h => ?_, fun h => absurd (g3.mp h4) (by simpa using h.2.no13)⟩
      refine absurd h (Pl.bind (α := Nat) (.orFatal _ (by decide)) (fun _ => ?_) |>.1 s)
      exact .bind (.modify (fun _ => rfl) (fun _ => rfl) (fun _ => rfl) (fun _ => rfl)) fun _ => checkCookie_pl _ _ _ _
    · rename_i h4
      cases ha : s.autoMode with
      | true =>
        exact ⟨fun _ => ⟨rfl, by simpa using h1, by simpa using h2, h3, g2, fun h => h4 (g3.mpr (.inr h))⟩,
          fun _ => rfl⟩
      | false => exact ⟨fun h => (by cases h), fun h => (by cases h.1)⟩
  · rw [show ∀ k : ChExts → M (Ses SSt) SSt, M.bind (clientExtensions env ch.exts _) k s = (.fail f, s) from
      fun k => by simp only [M.bind, M.andThen, g1]]
    exact ⟨fun h => (by cases h; exact absurd rfl g2), fun h => absurd h.2.exts g3⟩

/-- One step of the waiting server falls back exactly when it reads such a ClientHello. -/
theorem awaitClientHello_fb (s : Ses SSt) :
    (awaitClientHello env s).1 = .fail (.fatal .dtls12Fallback) ↔ s.autoMode = true ∧
      ∃ ch e, nextHandshakeWith env.toEnv true true mtClientHello s.eng = (.ok (some (.clientHello ch)), e) ∧
        Old env ch := by
  have hnf := nextHandshakeWith_nf env.toEnv s.autoMode true mtClientHello s.eng
  have key : ∀ r e, nextHandshakeWith env.toEnv s.autoMode true mtClientHello s.eng = (r, e) →
      awaitClientHello env s = match r with
        | .ok none => (.ok .awaitClientHello, { s with eng := e })
        | .ok (some (.clientHello ch)) => clientHello env s.eng.transcript.length ch { s with eng := e }
        | .ok (some _) => (.fail .panic, { s with eng := e })
        | .fail f => (.fail f, { s with eng := e }) := by
    intro r e h
    unfold awaitClientHello
    simp only [bind_eq, M.bind, M.get, M.andThen, onEng, M.zoom, h]
    cases r with
    | fail f => rfl
    | ok o =>
      cases o with
      | none => rfl
      | some b => cases b <;> rfl
  cases hr : nextHandshakeWith env.toEnv s.autoMode true mtClientHello s.eng with
  | mk r e =>
    rw [key r e hr]
    rw [hr] at hnf
    cases r with
    | fail f =>
      constructor
      · intro h; exact absurd (by simpa using h) (by simpa [NotFb] using hnf)
      · rintro ⟨ha, ch, e', h, _⟩; rw [ha] at hr; rw [hr] at h; cases h
    | ok o =>
      cases o with
      | none =>
        constructor
        · intro h; cases h
        · rintro ⟨ha, ch, e', h, _⟩; rw [ha] at hr; rw [hr] at h; cases h
      | some b =>
        cases b with
        | clientHello ch =>
          dsimp only
          rw [clientHello_fb]
          constructor
          · rintro ⟨ha, ho⟩
            have ha : s.autoMode = true := ha
            exact ⟨ha, ch, e, by rw [ha] at hr; exact hr, ho⟩
          · rintro ⟨ha, ch', e', h, ho⟩
            rw [ha] at hr; rw [hr] at h
            cases h
            exact ⟨ha, ho⟩
        | _ =>
          constructor
          · intro h; cases h
          · rintro ⟨ha, ch, e', h, _⟩; rw [ha] at hr; rw [hr] at h; cases h

end S13

/-! ## `handle_packet` -/

/-- What `handle_packet` does before it runs the state machine. -/
def retain (R : Role) (p : Bytes) (s : Ses R.St) : Ses R.St :=
  if s.autoMode && R.first s.st then { s with retained := s.retained ++ [p] } else s

theorem handlePacketM_eq (R : Role) (env : PEnv) (p : Bytes) (s : Ses R.St) :
    handlePacketM R env p s =
      if (s.autoMode && R.first s.st) = true ∧ s.retained.length ≥ maxRetained then
        (.fail (.fatal .tooManyClientHelloFragments), s)
      else match parsePacket env.toEnv p s.eng with
        | (.fail f, e) => (.fail f, { retain R p s with eng := e })
        | (.ok _, e) => match progress R env progressFuel { retain R p s with eng := e } with
          | (.fail f, s') => (.fail f, s')
          | (.ok _, s') => (.ok (), if s'.autoMode && !R.first s'.st then { s' with retained := [], autoMode := false } else s') := by
  unfold handlePacketM retain
  cases hc : (s.autoMode && R.first s.st) with
  | false =>
    simp only [bind_eq, M.bind, M.andThen, M.get, hc, if_false, Bool.false_eq_true, false_and, M.modify,
      onEng, M.zoom]
    cases parsePacket env.toEnv p s.eng with
    | mk r e =>
      cases r with
      | fail f => rfl
      | ok u =>
        dsimp only
        cases progress R env progressFuel { s with eng := e } with
        | mk r s' => cases r <;> rfl
  | true =>
    by_cases hl : s.retained.length ≥ maxRetained
    · simp only [bind_eq, M.bind, M.andThen, M.get, hc, hl, if_true, and_self]
      rfl
    · simp only [bind_eq, M.bind, M.andThen, M.get, hc, hl, if_true, and_false, if_false, M.modify, onEng, M.zoom]
      cases parsePacket env.toEnv p s.eng with
      | mk r e =>
        cases r with
        | fail f => rfl
        | ok u =>
          dsimp only
          cases progress R env progressFuel _ with
          | mk r s' => cases r <;> rfl

theorem retain_auto (R : Role) (p : Bytes) (s : Ses R.St) : (retain R p s).autoMode = s.autoMode := by
  unfold retain; split <;> rfl

theorem retain_st (R : Role) (p : Bytes) (s : Ses R.St) : (retain R p s).st = s.st := by
  unfold retain; split <;> rfl

theorem handlePacketM_fb {R : Role} {env : PEnv} (hn : ∀ st, R.first st = false → ∀ s, NotFb (R.step env st s).1)
    (hr : ∀ st, R.first st = false → Gives (fun st => R.first st = false) (R.step env st))
    (h1 : ∀ st st', R.first st = true → R.first st' = true → st = st') (p : Bytes) (s : Ses R.St) :
    (handlePacketM R env p s).1 = .fail (.fatal .dtls12Fallback) ↔
    R.first s.st = true ∧ ¬ (s.autoMode = true ∧ s.retained.length ≥ maxRetained) ∧
    ∃ e, parsePacket env.toEnv p s.eng = (.ok (), e) ∧
      (R.step env s.st { retain R p s with eng := e }).1 = .fail (.fatal .dtls12Fallback) := by
  rw [handlePacketM_eq]
  split
  · rename_i hc
    refine ⟨fun h => (by cases h), fun ⟨h, h', _⟩ => absurd ?_ h'⟩
    simpa [h] using hc
  · rename_i hc
    have hnf := parsePacket_nf env.toEnv p s.eng
    cases hp : parsePacket env.toEnv p s.eng with
    | mk r e =>
      rw [hp] at hnf
      cases r with
      | fail f =>
        dsimp only
        constructor
        · intro h; cases h; exact absurd rfl hnf
        · rintro ⟨_, _, e1, h, _⟩; cases h
      | ok u =>
        dsimp only
        have key := progress_fb hn hr h1 (progressFuel - 1) { retain R p s with eng := e }
        have key : (progress R env progressFuel { retain R p s with eng := e }).1 = .fail (.fatal .dtls12Fallback) ↔
          R.first (retain R p s).st = true ∧ (R.step env (retain R p s).st { retain R p s with eng := e }).1 =
            .fail (.fatal .dtls12Fallback) := key
        rw [retain_st] at key
        cases hg : progress R env progressFuel { retain R p s with eng := e } with
        | mk r s' =>
          rw [hg] at key
          cases r with
          | ok u =>
            dsimp only at key ⊢
            constructor
            · intro h; cases h
            · rintro ⟨a, _, e1, h, h'⟩
              cases h
              cases key.mpr ⟨a, h'⟩
          | fail f =>
            dsimp only at key ⊢
            refine key.trans ?_
            constructor
            · rintro ⟨a, b⟩
              refine ⟨a, fun h => hc ⟨by rw [h.1, a]; rfl, h.2⟩, e, rfl, b⟩
            · rintro ⟨a, _, e1, h, h'⟩
              cases h
              exact ⟨a, h'⟩

/-- What is kept when `handle_packet` fails after parsing. -/
theorem handlePacketM_kept {R : Role} {env : PEnv} (hk : ∀ st, Kp (R.step env st)) (p : Bytes) (s : Ses R.St)
    (f : Fault) (h : (handlePacketM R env p s).1 = .fail f) (hl : s.retained.length < maxRetained) :
    (handlePacketM R env p s).2.retained = (retain R p s).retained ∧
    (handlePacketM R env p s).2.lastNow = s.lastNow := by
  have hlast : (retain R p s).lastNow = s.lastNow := by unfold retain; split <;> rfl
  revert h
  rw [handlePacketM_eq, if_neg (by omega)]
  cases parsePacket env.toEnv p s.eng with
  | mk r e =>
    cases r with
    | fail f => intro _; exact ⟨rfl, hlast⟩
    | ok u =>
      dsimp only
      obtain ⟨_, g2, g3⟩ := progress_kp hk progressFuel { retain R p s with eng := e }
      cases hg : progress R env progressFuel { retain R p s with eng := e } with
      | mk r s' =>
        rw [hg] at g2 g3
        cases r with
        | ok u => intro h; cases h
        | fail f => intro _; exact ⟨g2, g3.trans hlast⟩

/-- Once the version is decided it stays so. -/
theorem handlePacketM_auto {R : Role} {env : PEnv} (hk : ∀ st, Kp (R.step env st)) (p : Bytes) (s : Ses R.St)
    (h : s.autoMode = false) : (handlePacketM R env p s).2.autoMode = false := by
  rw [handlePacketM_eq, if_neg (by simp [h])]
  have hre : retain R p s = s := by unfold retain; rw [if_neg (by simp [h])]
  rw [hre]
  cases parsePacket env.toEnv p s.eng with
  | mk r e =>
    cases r with
    | fail f => exact h
    | ok u =>
      dsimp only
      obtain ⟨g1, _, _⟩ := progress_kp hk progressFuel { s with eng := e }
      have g1 : _ = false := g1.trans h
      cases hg : progress R env progressFuel { s with eng := e } with
      | mk r s' =>
        rw [hg] at g1
        cases r with
        | fail f => exact g1
        | ok u =>
          dsimp only at g1 ⊢
          rw [if_neg (by simp [g1])]
          exact g1

/-- The other calls leave the decision and the retained datagrams alone. -/
def Am {St α : Type} (m : P St α) : Prop :=
  ∀ s, (m s).2.autoMode = s.autoMode ∧ (m s).2.retained = s.retained

theorem Kp.am {St α : Type} {m : P St α} (h : Kp m) : Am m := fun s => ⟨(h s).1, (h s).2.1⟩

theorem Am.bind {St α β : Type} {m : P St α} {f : α → P St β} (h : Am m) (g : ∀ a, Am (f a)) : Am (M.bind m f) := by
  intro s
  rw [bind_snd]
  split
  · exact ⟨(g _ _).1.trans (h s).1, (g _ _).2.trans (h s).2⟩
  · exact h s

theorem Am.modify {St : Type} {f : Ses St → Ses St} (h1 : ∀ s, (f s).autoMode = s.autoMode)
    (h2 : ∀ s, (f s).retained = s.retained) : Am (M.modify f) := fun s => ⟨h1 s, h2 s⟩

theorem Am.onEng {St α : Type} (m : E α) : Am (E13.onEng m : P St α) := fun _ => ⟨rfl, rfl⟩

theorem call_am {R : Role} {env : PEnv} (hk : ∀ st, Kp (R.step env st)) (s : Ses R.St) (c : E12.Call)
    (h : ∀ p, c ≠ .packet p) : (call R env s c).2.autoMode = s.autoMode ∧ (call R env s c).2.retained = s.retained := by
  cases c with
  | packet p => exact absurd rfl (h p)
  | timeout now =>
    refine Am.bind (m := M.modify (noteTime R env now)) (.modify ?_ ?_) (fun _ => .bind (.onEng _) fun _ t =>
      ⟨(progress_kp hk _ t).1, (progress_kp hk _ t).2.1⟩) s
    · intro s; unfold noteTime; split <;> rfl
    · intro s; unfold noteTime; split <;> rfl
  | send d =>
    show (sendM R env d s).2.autoMode = _ ∧ (sendM R env d s).2.retained = _
    unfold sendM
    simp only [bind_eq]
    refine Am.bind (m := M.get) Pl.get.2.am (fun t => ?_) s
    split
    · exact Kp.am (.rfl_ fun _ => rfl)
    · split
      · exact .modify (fun _ => rfl) (fun _ => rfl)
      · exact .onEng _
  | close =>
    show (closeM R env s).2.autoMode = _ ∧ (closeM R env s).2.retained = _
    unfold closeM
    simp only [bind_eq]
    refine Am.bind (m := M.get) Pl.get.2.am (fun t => ?_) s
    split
    · exact Kp.am (.rfl_ fun _ => rfl)
    · split
      · exact .bind (Pl.onEng' _).2.am fun _ => .modify (fun _ => rfl) (fun _ => rfl)
      · exact .bind (.onEng _) fun _ => .bind (Pl.onEng' _).2.am fun _ => .modify (fun _ => rfl) (fun _ => rfl)
  | poll n =>
    show (pollM R n s).2.autoMode = _ ∧ (pollM R n s).2.retained = _
    unfold pollM
    split <;> exact ⟨rfl, rfl⟩

/-- The first state is left for good. -/
theorem progress_first {R : Role} {env : PEnv} (hk : ∀ st, Kp (R.step env st))
    (hr : ∀ st, R.first st = false → Gives (fun st => R.first st = false) (R.step env st))
    (fuel : Nat) (s : Ses R.St) (h : R.first s.st = false) : R.first (progress R env fuel s).2.st = false := by
  induction fuel generalizing s with
  | zero => exact h
  | succ fuel ih =>
    rw [progress_succ]
    obtain ⟨_, _, _, h4⟩ := hk s.st s
    have h2 := hr s.st h s
    split
    · rename_i new s' heq
      rw [heq] at h2 h4
      split
      · exact (congrArg R.first h4).trans h
      · exact ih _ (h2 _ rfl)
    · rename_i f s' heq
      rw [heq] at h4
      exact (congrArg R.first h4).trans h

theorem call_first {R : Role} {env : PEnv} (hk : ∀ st, Kp (R.step env st))
    (hr : ∀ st, R.first st = false → Gives (fun st => R.first st = false) (R.step env st))
    (hc : R.first R.closed = false) (hh : R.first R.halfClosed = false)
    (s : Ses R.St) (c : E12.Call) (h : R.first s.st = false) : R.first (call R env s c).2.st = false := by
  cases c with
  | packet p =>
    show R.first (handlePacketM R env p s).2.st = false
    rw [handlePacketM_eq, if_neg (by simp [h])]
    have hre : retain R p s = s := by unfold retain; rw [if_neg (by simp [h])]
    rw [hre]
    cases parsePacket env.toEnv p s.eng with
    | mk r e =>
      cases r with
      | fail f => exact h
      | ok u =>
        dsimp only
        have g := progress_first hk hr progressFuel { s with eng := e } h
        cases hg : progress R env progressFuel { s with eng := e } with
        | mk r s' =>
          rw [hg] at g
          cases r with
          | fail f => exact g
          | ok u => dsimp only; split <;> exact g
  | timeout now =>
    show R.first (handleTimeoutM R env now s).2.st = false
    have hn : (noteTime R env now s).st = s.st := by unfold noteTime; split <;> rfl
    unfold handleTimeoutM
    simp only [bind_eq]
    rw [bind_snd]
    show R.first (M.bind (onEng (handleTimeout env.toEnv now)) _ (noteTime R env now s)).2.st = false
    rw [bind_snd]
    split
    · exact progress_first hk hr _ _ ((congrArg R.first hn).trans h)
    · exact (congrArg R.first hn).trans h
  | send d =>
    show R.first (sendM R env d s).2.st = false
    unfold sendM
    simp only [bind_eq]
    show R.first ((if _ then _ else _ : P R.St Unit) s).2.st = false
    split
    · exact h
    · split <;> exact h
  | close =>
    show R.first (closeM R env s).2.st = false
    unfold closeM
    simp only [bind_eq]
    show R.first ((if _ then _ else _ : P R.St Unit) s).2.st = false
    split
    · exact h
    · split
      · exact hc
      · rw [bind_snd]
        split
        · exact hh
        · exact h
  | poll n =>
    show R.first (pollM R n s).2.st = false
    unfold pollM
    split <;> exact h

/-- A packet that leaves the version undecided is retained while there is room. -/
theorem handlePacketM_retains {R : Role} {env : PEnv} (hk : ∀ st, Kp (R.step env st)) (p : Bytes) (s : Ses R.St)
    (hf : R.first s.st = true) (ha : (handlePacketM R env p s).2.autoMode = true) :
    s.autoMode = true ∧
    (handlePacketM R env p s).2.retained = if s.retained.length < maxRetained then s.retained ++ [p] else s.retained := by
  cases hs : s.autoMode with
  | false => rw [handlePacketM_auto hk p s hs] at ha; cases ha
  | true =>
    refine ⟨rfl, ?_⟩
    revert ha
    rw [handlePacketM_eq]
    by_cases hl : s.retained.length < maxRetained
    · rw [if_pos hl, if_neg (by omega)]
      have hre : retain R p s = { s with retained := s.retained ++ [p] } := by
        unfold retain; rw [if_pos (by rw [hs, hf]; rfl)]
      rw [hre]
      cases parsePacket env.toEnv p s.eng with
      | mk r e =>
        cases r with
        | fail f => intro _; rfl
        | ok u =>
          dsimp only
          obtain ⟨g1, g2, _⟩ := progress_kp hk progressFuel { s with retained := s.retained ++ [p], eng := e }
          cases hg : progress R env progressFuel { s with retained := s.retained ++ [p], eng := e } with
          | mk r s' =>
            rw [hg] at g1 g2
            cases r with
            | fail f => intro _; exact g2
            | ok u =>
              dsimp only at g1 g2 ⊢
              split
              · intro h; cases h
              · intro _; exact g2
    · rw [if_neg hl, if_pos ⟨by rw [hs, hf]; rfl, by omega⟩]
      intro _; rfl

/-- At most 64 datagrams are retained. -/
theorem handlePacketM_bound {R : Role} {env : PEnv} (hk : ∀ st, Kp (R.step env st)) (p : Bytes) (s : Ses R.St)
    (h : s.retained.length ≤ maxRetained) : (handlePacketM R env p s).2.retained.length ≤ maxRetained := by
  rw [handlePacketM_eq]
  split
  · exact h
  · rename_i hc
    have hre : (retain R p s).retained.length ≤ maxRetained := by
      unfold retain
      split
      · rename_i hb
        have : ¬ s.retained.length ≥ maxRetained := fun hl => hc ⟨hb, hl⟩
        simp; omega
      · exact h
    cases parsePacket env.toEnv p s.eng with
    | mk r e =>
      cases r with
      | fail f => exact hre
      | ok u =>
        dsimp only
        obtain ⟨_, g2, _⟩ := progress_kp hk progressFuel { retain R p s with eng := e }
        cases hg : progress R env progressFuel { retain R p s with eng := e } with
        | mk r s' =>
          rw [hg] at g2
          cases r with
          | fail f => exact g2 ▸ hre
          | ok u =>
            dsimp only at g2 ⊢
            split
            · exact Nat.zero_le _
            · rw [g2]; exact hre

namespace S13
variable {env : PEnv}

theorem first_iff (st : role.St) : role.first st = true ↔ st = (SSt.awaitClientHello : role.St) := by
  cases st <;> (constructor <;> intro h <;> first | rfl | cases h)

theorem step_first (st : role.St) (h : role.first st = false) :
    Gives (fun st => role.first st = false) (role.step env st) := by
  intro t a ha
  have := step_succ (env := env) st t a ha
  cases hb : role.first a with
  | false => rfl
  | true =>
    rw [first_iff] at hb
    subst hb
    cases st <;> first | (cases h; done) | (revert this; decide)

/-- `handle_packet` asks for the fallback exactly if the version is undecided, the datagram parses and
completes a ClientHello that is good for DTLS 1.2 and does not offer DTLS 1.3. -/
theorem handlePacket_fb (he : ∀ c n, env.schemeError c n ≠ some .dtls12Fallback) (p : Bytes) (s : Ses SSt) :
    (handlePacketM role env p s).1 = .fail (.fatal .dtls12Fallback) ↔
      s.autoMode = true ∧ s.st = .awaitClientHello ∧ s.retained.length < maxRetained ∧
      ∃ e1 ch e2, parsePacket env.toEnv p s.eng = (.ok (), e1) ∧
        nextHandshakeWith env.toEnv true true mtClientHello e1 = (.ok (some (.clientHello ch)), e2) ∧ Old env ch := by
  have hn : ∀ st, role.first st = false → ∀ s, NotFb (role.step env st s).1 := fun st h s =>
    (step_pl he st (fun h' => by rw [h'] at h; cases h)).1 s
  have hr := step_first (env := env)
  have h1 : ∀ st st', role.first st = true → role.first st' = true → st = st' := fun st st' h h' => by
    rw [first_iff] at h h'; rw [h, h']
  refine (handlePacketM_fb hn hr h1 p s).trans ?_
  constructor
  · rintro ⟨k1, k2, e, k3, k4⟩
    have k1' : s.st = .awaitClientHello := (first_iff _).mp k1
    have k4' : (step env s.st { retain role p s with eng := e }).1 = _ := k4
    rw [k1'] at k4'
    obtain ⟨g1, ch, e2, g2⟩ := (awaitClientHello_fb _).mp k4'
    have g1' : s.autoMode = true := (retain_auto role p s).symm.trans g1
    exact ⟨g1', k1', Nat.lt_of_not_le fun h => k2 ⟨g1', h⟩, e, ch, e2, k3, g2⟩
  · rintro ⟨k1, k2, k3, e, ch, e2, k4, k5⟩
    refine ⟨(first_iff _).mpr k2, fun h => by omega, e, k4, ?_⟩
    show (step env s.st { retain role p s with eng := e }).1 = _
    rw [k2]
    exact (awaitClientHello_fb _).mpr ⟨(retain_auto role p s).trans k1, ch, e2, k5⟩

/-- In that case nothing the server was fed is lost. -/
theorem handlePacket_fb_kept (he : ∀ c n, env.schemeError c n ≠ some .dtls12Fallback) (p : Bytes) (s : Ses SSt)
    (h : (handlePacketM role env p s).1 = .fail (.fatal .dtls12Fallback)) :
    (handlePacketM role env p s).2.retained = s.retained ++ [p] ∧
    (handlePacketM role env p s).2.lastNow = s.lastNow := by
  obtain ⟨a, b, c, _⟩ := (handlePacket_fb he p s).mp h
  obtain ⟨g1, g2⟩ := handlePacketM_kept (R := role) (fun st => step_kp st) p s _ h c
  have hre : retain role p s = { s with retained := s.retained ++ [p] } := by
    unfold retain
    exact if_pos (by rw [a]; exact (first_iff _).mpr b)
  exact ⟨g1.trans (by rw [hre]), g2⟩

/-- No call undoes the decision for DTLS 1.3. -/
theorem call_auto (s : Ses SSt) (c : E12.Call) (h : s.autoMode = false) : (call role env s c).2.autoMode = false := by
  by_cases hc : ∃ p, c = .packet p
  · obtain ⟨p, rfl⟩ := hc
    exact handlePacketM_auto (R := role) (fun st => step_kp st) p s h
  · exact (call_am (R := role) (fun st => step_kp st) s c fun p hp => hc ⟨p, hp⟩).1.trans h

/-- No call brings the server back to its first state. -/
theorem call_await (s : Ses SSt) (c : E12.Call) (h : (call role env s c).2.st = SSt.awaitClientHello) :
    s.st = .awaitClientHello := by
  have h' : role.first (call role env s c).2.st = true := (first_iff _).mpr h
  have key := call_first (R := role) (fun st => step_kp (env := env) st) step_first rfl rfl s c
  cases hb : role.first s.st with
  | true => exact (first_iff _).mp hb
  | false => rw [key hb] at h'; cases h'

end S13

end Verif.E13

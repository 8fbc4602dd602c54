import Verif.Lemmas.Ends12
import Verif.Lemmas.Role13
import Verif.Lemmas.Phase13
/-!
# No loop of a DTLS 1.3 session runs forever

The counterpart of `Verif.Lemmas.Ends12`.
-/
namespace Verif.E13
open Verif Wire Window Timer Aead M
open Verif.E12 (Call Ret toApi)

section eng
variable {env : Env}

theorem createPlain_halts (c : UInt8) (sv : Bool) (f : Bytes) : Returns (createPlain c sv f) := by
  intro s
  unfold createPlain
  dsimp only
  repeat' split
  all_goals nofun

theorem createCipher_halts (c : UInt8) (ep : Nat) (sv : Bool) (f : Bytes) : Returns (createCipher env c ep sv f) := by
  intro s
  unfold createCipher sealCipher queueCipher
  dsimp only
  repeat' split
  all_goals nofun

theorem resendLoop_halts (l : List Entry) : Returns (resendLoop env l) := by
  have h : ∀ e, Returns (resendEntry env e) := fun e s => by
    unfold resendEntry
    split
    · exact Returns.bind (createPlain_halts _ _ _) (fun _ => .pure _) s
    · exact Returns.bind (createCipher_halts _ _ _ _) (fun _ => .pure _) s
  induction l with
  | nil => exact .pure _
  | cons e rest ih =>
    unfold resendLoop
    split
    · exact .bind ih fun _ => .pure _
    · exact .bind (h _) fun _ => .bind ih fun _ => .pure _

theorem flightResend_halts : Returns (flightResend env) := by
  intro s
  unfold flightResend
  exact Returns.bind (resendLoop_halts _) (fun _ => .modify _) _

theorem deriveEpochKeys_halts (b : Bytes) : Returns (deriveEpochKeys env b) := by
  intro s
  unfold deriveEpochKeys
  repeat' split
  all_goals nofun

theorem deriveNextSecret_halts (b : Bytes) : Returns (deriveNextSecret env b) := by
  intro s
  unfold deriveNextSecret
  repeat' split
  all_goals nofun

theorem installHandshakeKeys_halts (a b : Bytes) : Returns (installHandshakeKeys env a b) := by
  have h := fun b => deriveEpochKeys_halts (env := env) b
  unfold installHandshakeKeys
  returns
  all_goals exact h _

theorem installApplicationKeys_halts (a b : Bytes) : Returns (installApplicationKeys env a b) := by
  have h := fun b => deriveEpochKeys_halts (env := env) b
  unfold installApplicationKeys
  refine .bind .get fun s => .bind (h _) fun _ => .bind (.modify _) fun _ => .bind (h _) fun _ => .bind .get fun _ => ?_
  returns

theorem updateSendKeys_halts : Returns (updateSendKeys env) := by
  intro s
  unfold updateSendKeys
  split
  · nofun
  · refine Returns.bind (deriveNextSecret_halts _) (fun _ => .bind (deriveEpochKeys_halts _) fun _ => ?_) _
    returns

theorem updateRecvKeys_halts : Returns (updateRecvKeys env) := by
  intro s
  unfold updateRecvKeys
  split
  · nofun
  · refine Returns.bind (deriveNextSecret_halts _) (fun _ => ?_) _
    split
    · exact .panic
    · exact .bind (deriveEpochKeys_halts _) fun _ => .modify _

theorem createKeyUpdate_halts (r : Bool) : Returns (createKeyUpdate env r) := by
  unfold createKeyUpdate
  refine .bind (.modify _) fun _ => .bind .get fun s => ?_
  split
  · exact .panic
  · exact .bind (.modify _) fun _ => .bind (createCipher_halts _ _ _ _) fun _ => .modify _

theorem sendAckInner_halts (sv : Bool) : Returns (sendAckInner env sv) := by
  intro s
  unfold sendAckInner
  split
  · nofun
  · exact createCipher_halts _ _ _ _ _

theorem sendAckRetransmittable_halts : Returns (sendAckRetransmittable env) :=
  fun _ => sendAckInner_halts _ _

theorem ackKeyUpdate_halts : Returns (ackKeyUpdate env) := by
  intro s
  unfold ackKeyUpdate
  split
  · exact Returns.bind updateSendKeys_halts (fun _ => .modify _) _
  · nofun

theorem processAck_halts (d : Bytes) : Returns (processAck env d) := by
  intro s
  unfold processAck
  split
  · nofun
  · exact ackKeyUpdate_halts _

theorem recordParse_halts (b : Bytes) : Returns (recordParse env b) := by
  intro s
  unfold recordParse openRecord
  dsimp only
  repeat' split
  all_goals nofun

theorem parseSlices_halts (l : List Bytes) (e : SplitEnd) (acc : List Rx) : Returns (parseSlices env l e acc) := by
  induction l generalizing acc with
  | nil => cases e <;> unfold parseSlices <;> returns
  | cons b rest ih =>
    unfold parseSlices
    refine .bind (recordParse_halts _) fun r => ?_
    repeat' split
    all_goals first | exact ih _ | exact .transient

theorem classify_halts (r : Rx) : Returns (classify env r) := by
  intro s
  unfold classify classifyAlert
  repeat' split
  all_goals first | exact Returns.bind (processAck_halts _) (fun _ => .pure _) s | nofun

theorem classifyAll_halts (l acc : List Rx) : Returns (classifyAll env l acc) := by
  induction l generalizing acc with
  | nil => exact .pure _
  | cons r rest ih =>
    refine .bind (classify_halts _) fun o => ?_
    split
    all_goals exact ih _

theorem insertIncoming_halts (rs : List Rx) : Returns (insertIncoming env rs) := by
  have h1 : ∀ l, Returns (insertHs env l) := fun l s => by
    unfold insertHs; dsimp only; repeat' split
    all_goals nofun
  have h2 : ∀ l, Returns (insertBySeq env l) := fun l s => by
    unfold insertBySeq; dsimp only; repeat' split
    all_goals nofun
  have h3 : Returns (maybeResend env rs) := fun s => by
    unfold maybeResend
    repeat' split
    all_goals first | exact flightResend_halts s | nofun
  have h4 : ∀ x, Returns (insertHandshakeTail env rs x) := fun x s => by
    unfold insertHandshakeTail
    repeat' split
    all_goals first | exact h1 _ s | nofun
  intro s
  unfold insertIncoming
  split
  · nofun
  split
  · nofun
  split
  · exact Returns.bind h3 (fun _ => h4 _) s
  · exact h2 _ s

theorem parsePacket_halts (p : Bytes) : Returns (parsePacket env p) := by
  unfold parsePacket recordsParse
  refine .bind (.bind (parseSlices_halts _ _ _) fun _ => classifyAll_halts _ _) fun rs => ?_
  split
  · exact .pure _
  · exact insertIncoming_halts _

theorem reparse_halts (l : List Bytes) : Returns (reparse env l) := by
  induction l with
  | nil => exact .pure _
  | cons b rest ih => exact .bind (parsePacket_halts _) fun _ => ih

theorem enablePeer_halts : Returns (enablePeerEncryption env) := by
  intro s
  unfold enablePeerEncryption
  dsimp only
  split
  · nofun
  · exact reparse_halts _ _

theorem nextHandshakeWith_halts (a i : Bool) (t : UInt8) : Returns (nextHandshakeWith env a i t) := by
  intro s
  unfold nextHandshakeWith defragment
  dsimp only
  repeat' split
  all_goals nofun

theorem advancePeerSeq_halts : Returns advancePeerSeq := by
  intro s
  unfold advancePeerSeq
  split <;> nofun

theorem replaceTranscript_halts (n : Nat) : Returns (replaceTranscript env n) := by
  intro s
  unfold replaceTranscript
  dsimp only
  repeat' split
  all_goals nofun

theorem ackDuty_halts (n : Nat) : Returns (ackDuty env n) := by
  intro s
  unfold ackDuty flushAck
  dsimp only
  repeat' split
  all_goals first | exact createCipher_halts _ _ _ _ _ | nofun

theorem handleTimeout_halts (n : Nat) : Returns (handleTimeout env n) := by
  intro s
  unfold handleTimeout
  dsimp only
  split
  all_goals first
    | exact ackDuty_halts _ _
    | exact Returns.bind flightResend_halts (fun _ => ackDuty_halts _) _
    | nofun

/-- No suite adds more than 16 bytes to a record. -/
def Slim (env : Env) : Prop := ∀ cs n, env.suiteTag cs = some n → n ≤ 16

/-- The least size of a datagram that a configuration allows. -/
def Roomy (e : Eng) : Prop := 64 ≤ e.cfg.mtu

theorem createHandshake_halts (hs : Slim env) {t : UInt8} {body : Bytes} {e : Eng} (h : Roomy e) :
    (createHandshake env t body e).1 ≠ .fail .diverge := by
  have hm : 64 ≤ e.cfg.mtu := h
  unfold createHandshake
  dsimp only
  split
  · simp
  split
  · simp
  · rename_i tag htg
    refine Props.Frag13.loop_ends _ _ ?_ (by omega)
    dsimp only
    unfold fixedOverhead
    split at htg
    · rw [if_pos (by assumption)]; omega
    · rw [if_neg (by assumption)]
      have : tag ≤ 16 := by
        unfold Eng.tag at htg
        cases hc : e.suite with
        | none => rw [hc] at htg; cases htg
        | some cs => rw [hc] at htg; exact hs cs tag htg
      omega

/-- Keeps the room. -/
def Spares (a b : Eng) : Prop := Roomy a → Roomy b

theorem SameRole.spares {a b : Eng} (h : SameRole a b) : Spares a b := by
  have h1 : b.cfg = a.cfg := congrArg Prod.snd h
  unfold Spares Roomy
  rw [h1]
  exact id

end eng

section
variable {St : Type} {env : Env}

/-- In a session with room `m` comes to an end and leaves room. -/
def Lasts {α : Type} (m : P St α) : Prop :=
  ∀ s, Roomy s.eng → (m s).1 ≠ .fail .diverge ∧ Roomy (m s).2.eng

variable {α β : Type}

theorem Lasts.of {m : P St α} (h : Returns m) (g : ∀ s, Spares s.eng (m s).2.eng) : Lasts m := fun s hs => ⟨h s, g s hs⟩
theorem Lasts.pure (a : α) : Lasts (M.pure a : P St α) := .of (.pure a) fun _ => id
theorem Lasts.get : Lasts (M.get : P St (Ses St)) := .of .get fun _ => id
theorem Lasts.fatal (e : Error) : Lasts (M.fatal e : P St α) := .of (.fatal e) fun _ => id
theorem Lasts.transient : Lasts (M.transient : P St α) := .of .transient fun _ => id
theorem Lasts.panic : Lasts (M.panic : P St α) := .of .panic fun _ => id

theorem Lasts.bind {m : P St α} {f : α → P St β} (h : Lasts m) (g : ∀ a, Lasts (f a)) : Lasts (M.bind m f) := by
  intro s hs
  obtain ⟨h1, h2⟩ := h s hs
  unfold M.bind M.andThen
  split
  · rename_i a s' hm
    rw [hm] at h2
    exact g _ _ h2
  · rename_i e s' hm
    rw [hm] at h1 h2
    refine ⟨fun h3 => ?_, h2⟩
    cases h3
    exact h1 rfl

theorem Lasts.modify {f : Ses St → Ses St} (h : ∀ s, Spares s.eng (f s).eng) : Lasts (M.modify f) := .of (.modify _) h
theorem Lasts.check (c : Bool) (e : Error) : Lasts (check c e : P St Unit) := by
  unfold E13.check; split
  · exact .pure _
  · exact .fatal _
theorem Lasts.orFatal (o : Option α) (e : Error) : Lasts (orFatal o e : P St α) := by
  cases o
  · exact .fatal _
  · exact .pure _
theorem Lasts.orPanic (o : Option α) : Lasts (orPanic o : P St α) := by
  cases o
  · exact .panic
  · exact .pure _
theorem Lasts.orTransient (o : Option α) : Lasts (orTransient o : P St α) := by
  cases o
  · exact .transient
  · exact .pure _
theorem Lasts.onEng {m : E α} (g : Returns m) (h : ∀ e, SameRole e (m e).2) : Lasts (E13.onEng m : P St α) :=
  fun s hs => ⟨g s.eng, (h s.eng).spares hs⟩
theorem Lasts.onEng' {f : Eng → Eng} (h : ∀ e, SameRole e (f e)) : Lasts (E13.onEng' f : P St Unit) :=
  .modify fun s => (h s.eng).spares
theorem Lasts.drawTick : Lasts (drawTick : P St Nat) := fun _ hs => ⟨nofun, hs⟩
theorem Lasts.setSuite (n) : Lasts (setSuite n : P St Unit) := .modify fun _ => id
theorem Lasts.handshake (hs : Slim env) (t b) : Lasts (E13.onEng (createHandshake env t b) : P St Unit) :=
  fun s h => ⟨createHandshake_halts hs h, SameRole.spares ((role_frame env).handshake s.eng t b) h⟩
theorem Lasts.cipher (c ep sv f) : Lasts (E13.onEng (createCipher env c ep sv f) : P St Unit) :=
  .onEng (createCipher_halts _ _ _ _) fun _ => createCipher_who ..
theorem Lasts.next (a i t) : Lasts (E13.onEng (nextHandshakeWith env a i t) : P St (Option Body)) :=
  .onEng (nextHandshakeWith_halts a i t) fun _ => nextHandshakeWith_who ..
theorem Lasts.next' (t) : Lasts (E13.onEng (nextHandshake env t) : P St (Option Body)) := .next _ _ _
theorem Lasts.advance : Lasts (E13.onEng advancePeerSeq : P St Unit) :=
  .onEng advancePeerSeq_halts fun _ => advancePeerSeq_who ..
theorem Lasts.enable : Lasts (E13.onEng (enablePeerEncryption env) : P St Unit) :=
  .onEng enablePeer_halts fun _ => enablePeerEncryption_who ..
theorem Lasts.replace (n) : Lasts (E13.onEng (replaceTranscript env n) : P St Unit) :=
  .onEng (replaceTranscript_halts n) fun _ => replaceTranscript_who ..
theorem Lasts.hsKeys (a b) : Lasts (E13.onEng (installHandshakeKeys env a b) : P St Unit) :=
  .onEng (installHandshakeKeys_halts a b) fun _ => installHandshakeKeys_who ..
theorem Lasts.appKeys (a b) : Lasts (E13.onEng (installApplicationKeys env a b) : P St Unit) :=
  .onEng (installApplicationKeys_halts a b) fun _ => installApplicationKeys_who ..
theorem Lasts.recvKeys : Lasts (E13.onEng (updateRecvKeys env) : P St Unit) :=
  .onEng updateRecvKeys_halts fun _ => updateRecvKeys_who ..
theorem Lasts.keyUpdate (r) : Lasts (E13.onEng (createKeyUpdate env r) : P St Unit) :=
  .onEng (createKeyUpdate_halts r) fun _ => createKeyUpdate_who ..
theorem Lasts.ack : Lasts (E13.onEng (sendAck env) : P St Unit) :=
  .onEng (sendAckInner_halts _) fun _ => sendAckInner_who ..
theorem Lasts.ackFinal : Lasts (E13.onEng (sendAckRetransmittable env) : P St Unit) :=
  .onEng sendAckRetransmittable_halts fun _ => sendAckRetransmittable_who ..

end

/-- Prove `Lasts` of a function by its syntax; `hs : Slim env` in context. -/
macro "lasts13" hs:ident : tactic => `(tactic|
  repeat' first
    | with_reducible exact Lasts.pure _
    | with_reducible exact Lasts.get
    | with_reducible exact Lasts.fatal _
    | with_reducible exact Lasts.transient
    | with_reducible exact Lasts.panic
    | with_reducible exact Lasts.check _ _
    | with_reducible exact Lasts.orFatal _ _
    | with_reducible exact Lasts.orPanic _
    | with_reducible exact Lasts.orTransient _
    | with_reducible exact Lasts.handshake $hs _ _
    | with_reducible exact Lasts.cipher _ _ _ _
    | with_reducible exact Lasts.next _ _ _
    | with_reducible exact Lasts.next' _
    | with_reducible exact Lasts.advance
    | with_reducible exact Lasts.enable
    | with_reducible exact Lasts.replace _
    | with_reducible exact Lasts.hsKeys _ _
    | with_reducible exact Lasts.appKeys _ _
    | with_reducible exact Lasts.recvKeys
    | with_reducible exact Lasts.keyUpdate _
    | with_reducible exact Lasts.ack
    | with_reducible exact Lasts.ackFinal
    | with_reducible exact Lasts.drawTick
    | with_reducible exact Lasts.setSuite _
    | (with_reducible refine Lasts.onEng' ?_) <;> exact fun _ => rfl
    | (with_reducible refine Lasts.modify ?_) <;> exact fun _ h => h
    | assumption
    | with_reducible refine Lasts.bind ?_ (fun _ => ?_)
    | split)

section shared
variable {St : Type} {env : PEnv} (hs : Slim env.toEnv)
include hs

theorem computeVerify_fin (b) : Lasts (computeVerify env b : P St Bytes) := by
  unfold computeVerify; simp only [bind_eq]; lasts13 hs
theorem installHandshake_fin (b) : Lasts (installHandshake env b : P St Unit) := by
  unfold installHandshake; simp only [bind_eq]; lasts13 hs
theorem installApplication_fin : Lasts (installApplication env : P St Unit) := by
  unfold installApplication; simp only [bind_eq]; lasts13 hs
theorem certificateVerifyBody_fin (b) : Lasts (certificateVerifyBody env b : P St Bytes) := by
  unfold certificateVerifyBody; simp only [bind_eq, pure_eq]; lasts13 hs
theorem awaitCertificateVerify_fin (b) (x y : St) : Lasts (awaitCertificateVerify env b x y) := by
  unfold awaitCertificateVerify; simp only [bind_eq, pure_eq]; lasts13 hs
theorem announceConnected_fin {f : Eng → Eng} (g : ∀ e, SameRole e (f e)) (a : St) :
    Lasts (announceConnected env f a) := by
  have h : Lasts (onEng' f : P St Unit) := .onEng' g
  unfold announceConnected; simp only [bind_eq, pure_eq]; lasts13 hs
theorem drainLoop_fin (ep) (l : List Bytes) : Lasts (drainLoop env ep l : P St Unit) := by
  induction l with
  | nil => exact .pure _
  | cons d rest ih => unfold drainLoop sendApp; simp only [bind_eq]; lasts13 hs
theorem awaitApplicationData_fin (a : St) : Lasts (awaitApplicationData env a) := by
  have h : Lasts (drainQueued env : P St Unit) :=
    fun s g => drainLoop_fin hs s.eng.appEpoch s.queued { s with queued := [] } g
  unfold awaitApplicationData autoKeyUpdate respondKeyUpdate takeKeyUpdate; simp only [bind_eq, pure_eq]
  lasts13 hs
theorem halfClosedLocal_fin (a b : St) : Lasts (halfClosedLocal env a b) := by
  unfold halfClosedLocal; simp only [bind_eq, pure_eq]; lasts13 hs
end shared

namespace C13
variable {env : PEnv} (hs : Slim env.toEnv)
include hs

theorem retryExtensions_fin (l) : Lasts (retryExtensions env l) := by
  induction l with
  | nil => exact .pure _
  | cons x rest ih =>
    obtain ⟨t, d⟩ := x
    unfold retryExtensions
    simp only [bind_eq, pure_eq]
    lasts13 hs

theorem encryptedExtensions_fin (l) : Lasts (encryptedExtensions env l) := by
  induction l with
  | nil => exact .pure _
  | cons x rest ih =>
    obtain ⟨t, d⟩ := x
    unfold encryptedExtensions
    simp only [bind_eq, pure_eq]
    lasts13 hs

theorem helloRetry_fin (n h) : Lasts (helloRetry env n h) := by
  have h1 := fun l => retryExtensions_fin hs l
  unfold helloRetry; simp only [bind_eq, pure_eq]; lasts13 hs
  exact h1 _

theorem serverHello_fin (h) : Lasts (serverHello env h) := by
  have h2 := fun b => installHandshake_fin (St := CSt) hs b
  unfold serverHello; simp only [bind_eq, pure_eq]; lasts13 hs
  exact h2 _

theorem step_fin (st : CSt) : Lasts (C13.step env st) := by
  have h1 := fun n h => helloRetry_fin hs n h
  have h2 := fun h => serverHello_fin hs h
  have h3 := fun l => encryptedExtensions_fin hs l
  have h4 := fun b => computeVerify_fin (St := CSt) hs b
  have h5 := installApplication_fin (St := CSt) hs
  have h6 := fun b => certificateVerifyBody_fin (St := CSt) hs b
  cases st
  all_goals unfold step
  · unfold sendClientHello; simp only [bind_eq, pure_eq]; lasts13 hs
  · unfold awaitServerHello; simp only [bind_eq, pure_eq]; lasts13 hs
    · exact h1 _ _
    · exact h2 _
  · unfold awaitEncryptedExtensions; simp only [bind_eq, pure_eq]; lasts13 hs; exact h3 _
  · unfold awaitCertificateRequest; simp only [bind_eq, pure_eq]; lasts13 hs
  · unfold awaitCertificate; simp only [bind_eq, pure_eq]; lasts13 hs
  · exact awaitCertificateVerify_fin hs _ _ _
  · unfold awaitFinished; simp only [bind_eq, pure_eq]; lasts13 hs; exact h4 _
  · unfold sendCertificate; simp only [bind_eq, pure_eq]; lasts13 hs
  · unfold sendCertificateVerify; simp only [bind_eq, pure_eq]; lasts13 hs; exact h6 _
  · unfold sendFinished; simp only [bind_eq, pure_eq]; lasts13 hs
    all_goals first | exact h4 _ | exact announceConnected_fin (f := releaseAppData) hs (fun _ => rfl) _
  · exact awaitApplicationData_fin hs _
  · exact halfClosedLocal_fin hs _ _
  · exact .pure _

end C13

namespace S13
variable {env : PEnv} (hs : Slim env.toEnv)
include hs

theorem clientExtensions_fin (l x) : Lasts (clientExtensions env l x) := by
  induction l generalizing x with
  | nil => exact .pure _
  | cons e rest ih =>
    obtain ⟨t, d⟩ := e
    unfold clientExtensions
    simp only [bind_eq]
    lasts13 hs
    all_goals exact ih _

theorem sendRetry_fin (a b c) : Lasts (sendRetry env a b c) := by
  unfold sendRetry; simp only [bind_eq, pure_eq]; lasts13 hs
theorem acceptClientHello_fin (a b c) : Lasts (acceptClientHello env a b c) := by
  unfold acceptClientHello; simp only [bind_eq, pure_eq]; lasts13 hs
theorem chooseShare_fin (a b c) : Lasts (chooseShare env a b c) := by
  have h1 := fun a b c => sendRetry_fin hs a b c
  have h2 := fun a b c => acceptClientHello_fin hs a b c
  unfold chooseShare; simp only [bind_eq]; lasts13 hs
  · exact h2 _ _ _
  · exact h1 _ _ _
theorem checkCookie_fin (a b c d) : Lasts (checkCookie env a b c d) := by
  have h1 := fun a b c => sendRetry_fin hs a b c
  have h2 := fun a b c => chooseShare_fin hs a b c
  unfold checkCookie; simp only [bind_eq, pure_eq]; lasts13 hs
  all_goals first | exact h1 _ _ _ | exact h2 _ _ _
theorem clientHello_fin (a b) : Lasts (clientHello env a b) := by
  have h1 := fun l b => clientExtensions_fin hs l b
  have h2 := fun a b c d => checkCookie_fin hs a b c d
  unfold clientHello; simp only [bind_eq]; lasts13 hs
  all_goals first | exact h1 _ _ | exact h2 _ _ _ _

theorem step_fin (st : SSt) : Lasts (S13.step env st) := by
  have h1 := fun a b => clientHello_fin hs a b
  have h2 := fun b => installHandshake_fin (St := SSt) hs b
  have h4 := fun b => computeVerify_fin (St := SSt) hs b
  have h5 := installApplication_fin (St := SSt) hs
  have h6 := fun b => certificateVerifyBody_fin (St := SSt) hs b
  cases st
  all_goals unfold step
  · unfold awaitClientHello; simp only [bind_eq, pure_eq]; lasts13 hs; exact h1 _ _
  · unfold sendServerHello; simp only [bind_eq, pure_eq]; lasts13 hs; exact h2 _
  · unfold sendEncryptedExtensions; simp only [bind_eq, pure_eq]; lasts13 hs
  · unfold sendCertificateRequest; simp only [bind_eq, pure_eq]; lasts13 hs
  · unfold sendCertificate; simp only [bind_eq, pure_eq]; lasts13 hs
  · unfold sendCertificateVerify; simp only [bind_eq, pure_eq]; lasts13 hs; exact h6 _
  · unfold sendFinished; simp only [bind_eq, pure_eq]; lasts13 hs; exact h4 _
  · unfold awaitCertificate; simp only [bind_eq, pure_eq]; lasts13 hs
  · exact awaitCertificateVerify_fin hs _ _ _
  · unfold awaitFinished; simp only [bind_eq, pure_eq]; lasts13 hs
    all_goals first | exact h4 _ | exact announceConnected_fin (f := releaseRetaining) hs (fun _ => rfl) _
  · exact awaitApplicationData_fin hs _
  · exact halfClosedLocal_fin hs _ _
  · exact .pure _

end S13

/-- A measure that every change of state lowers. -/
structure Falls (R : Role) (env : PEnv) (μ : Ses R.St → Nat) : Prop where
  ends : ∀ st, Lasts (R.step env st)
  falls : ∀ s new s', R.step env s.st s = (.ok new, s') → new = s.st ∨ μ { s' with st := new } < μ s
  low : ∀ s, μ s < progressFuel

section
variable {R : Role} {env : PEnv} {μ : Ses R.St → Nat}

theorem Falls.progress (h : Falls R env μ) (n : Nat) : ∀ s, Roomy s.eng → μ s < n →
    (progress R env n s).1 ≠ .fail .diverge ∧ Roomy (progress R env n s).2.eng := by
  induction n with
  | zero => intro s _ hn; omega
  | succ n ih =>
    intro s hr hn
    obtain ⟨h1, h2⟩ := h.ends s.st s hr
    have h3 := h.falls s
    unfold E13.progress
    simp only [bind_eq, pure_eq, M.bind, M.get, M.andThen]
    generalize hx : R.step env s.st s = x at h1 h2
    obtain ⟨r, s'⟩ := x
    cases r with
    | fail e => exact ⟨fun h4 => by cases h4; exact h1 rfl, h2⟩
    | ok new =>
      dsimp only
      split
      · exact ⟨nofun, h2⟩
      · rename_i hne
        have h4 := (h3 new s' hx).resolve_left fun g => hne g.symm
        exact ih { s' with st := new } h2 (by omega)

/-- How often the loop may go round makes no difference, as long as it is often enough. -/
theorem Falls.fuel (h : Falls R env μ) (n : Nat) : ∀ m s, Roomy s.eng → μ s < n → μ s < m →
    E13.progress R env n s = E13.progress R env m s := by
  induction n with
  | zero => intro m s _ hn; omega
  | succ n ih =>
    intro m s hr hn hm
    cases m with
    | zero => omega
    | succ m =>
      obtain ⟨h1, h2⟩ := h.ends s.st s hr
      have h3 := h.falls s
      unfold E13.progress
      simp only [bind_eq, pure_eq, M.bind, M.get, M.andThen]
      generalize hx : R.step env s.st s = x at h1 h2
      obtain ⟨r, s'⟩ := x
      cases r with
      | fail e => rfl
      | ok new =>
        dsimp only
        split
        · rfl
        · rename_i hne
          have h4 := (h3 new s' hx).resolve_left fun g => hne g.symm
          exact ih m { s' with st := new } h2 (by omega) (by omega)

/-- Every call returns and leaves room. -/
theorem Falls.call (h : Falls R env μ) (s : Ses R.St) (hr : Roomy s.eng) (c : Call) :
    (call R env s c).1 ≠ .res .diverge ∧ Roomy (call R env s c).2.eng := by
  have key : ∀ (m : P R.St Unit), Lasts m → .res (toApi (m s).1) ≠ Ret.res .diverge ∧ Roomy (m s).2.eng := by
    intro m hm
    obtain ⟨h1, h2⟩ := hm s hr
    refine ⟨fun h3 => h1 ?_, h2⟩
    generalize (m s).1 = r at h3
    injection h3 with h3
    cases r with
    | ok => cases h3
    | fail e => cases e <;> first | rfl | cases h3
  have hp : Lasts (E13.progress R env progressFuel) := fun s hs => h.progress _ s hs (h.low s)
  cases c with
  | packet p =>
    refine key (handlePacketM R env p) ?_
    unfold handlePacketM
    simp only [bind_eq, pure_eq]
    have hq : Lasts (onEng (parsePacket env.toEnv p) : P R.St Unit) :=
      .onEng (parsePacket_halts p) fun _ => parsePacket_who ..
    have hm : Lasts (M.modify fun s : Ses R.St =>
        if s.autoMode && !R.first s.st then { s with retained := [], autoMode := false } else s) :=
      .modify fun s => by split <;> exact id
    refine .bind .get fun s => ?_
    repeat' split
    · exact .fatal _
    · exact .bind (.modify fun _ => id) fun _ => .bind hq fun _ => .bind hp fun _ => hm
    · exact .bind hq fun _ => .bind hp fun _ => hm
  | timeout now =>
    refine key (handleTimeoutM R env now) ?_
    unfold handleTimeoutM
    refine .bind (.modify fun s => ?_) fun _ =>
      .bind (.onEng (handleTimeout_halts now) fun e => handleTimeout_who ..) fun _ => hp
    unfold noteTime; split <;> exact id
  | send d =>
    refine key (sendM R env d) ?_
    unfold sendM sendApp
    simp only [bind_eq]
    refine .bind .get fun s => ?_
    repeat' split
    · exact .fatal _
    · exact .modify fun _ => id
    · exact .cipher _ _ _ _
  | close =>
    refine key (closeM R env) ?_
    unfold closeM
    simp only [bind_eq, pure_eq]
    refine .bind .get fun s => ?_
    repeat' split
    · exact .pure _
    · exact .bind (.onEng' fun _ => rfl) fun _ => .modify fun _ => id
    · exact .bind (.cipher _ _ _ _) fun _ => .bind (.onEng' fun _ => rfl) fun _ => .modify fun _ => id
  | poll n =>
    refine ⟨nofun, ?_⟩
    show Roomy (pollM R n s).2.eng
    unfold pollM
    split
    · exact hr
    · exact SameRole.spares (pollOutput_who ..) hr

/-- No call of any sequence of calls hangs. -/
theorem Falls.run (h : Falls R env μ) (cs : List Call) : ∀ s, Roomy s.eng → .res .diverge ∉ (run R env s cs).1 := by
  induction cs with
  | nil => intro s _ h; cases h
  | cons c cs ih =>
    intro s hr
    obtain ⟨h1, h2⟩ := h.call s hr c
    unfold E13.run
    dsimp only
    split
    · exact fun hm => h1 (List.mem_singleton.mp hm).symm
    · intro hm
      rcases List.mem_cons.mp hm with hm | hm
      · exact h1 hm.symm
      · exact ih _ h2 hm

end

namespace C13

/-- States left to go through; `true`: a HelloRetryRequest has been answered. -/
def left : CSt → Bool → Nat
  | .sendClientHello, false => 16
  | .awaitServerHello, false => 15
  | .sendClientHello, true => 14
  | .awaitServerHello, true => 13
  | .awaitEncryptedExtensions, _ => 12
  | .awaitCertificateRequest, _ => 11
  | .awaitCertificate, _ => 10
  | .awaitCertificateVerify, _ => 9
  | .awaitFinished, _ => 8
  | .sendCertificate, _ => 7
  | .sendCertificateVerify, _ => 6
  | .sendFinished, _ => 5
  | .awaitApplicationData, _ => 4
  | .halfClosedLocal, _ => 3
  | .closed, _ => 2

theorem left_next {st new : CSt} (h : new ∈ succ st) (h1 : st ≠ .sendClientHello)
    (h2 : st ≠ .awaitServerHello) : new = st ∨ ∀ a b, left new a < left st b := by
  revert h1 h2 h
  cases st <;> cases new <;> simp [succ, left]

theorem left_hello {new : CSt} (h : new ∈ succ .awaitServerHello) (g : new ≠ .sendClientHello) (a b) :
    new = .awaitServerHello ∨ left new a < left .awaitServerHello b := by
  revert h g
  cases b <;> cases new <;> simp [succ, left]

theorem sendClientHello_goes {env : PEnv} (s : Ses CSt) : wp (sendClientHello env) s
    (fun _ s' => s'.helloRetry = s.helloRetry) (fun _ _ => True) := by
  unfold sendClientHello
  simp only [bind_eq, pure_eq]
  rw [wp_bind, wp_get, wp_bind]
  refine wp_orPanic_of (fun r _ => ?_) trivial
  rw [wp_bind, wp_onEng', wp_bind]
  refine wp_orFatal_of (fun g _ => ?_) trivial
  rw [wp_bind]
  refine wp_check_of (fun _ => ?_) trivial
  rw [wp_bind, wp_drawTick, wp_bind]
  refine wp_orFatal_of (fun p _ => ?_) trivial
  rw [wp_bind, wp_modify, wp_bind, wp_onEng]
  exact wp_of (fun _ _ _ => rfl) (fun _ _ _ => trivial)

theorem retryExtensions_keeps {env : PEnv} (l) (s : Ses CSt) : wp (retryExtensions env l) s
    (fun _ s' => s'.helloRetry = s.helloRetry) (fun _ _ => True) := by
  induction l generalizing s with
  | nil => rfl
  | cons x rest ih =>
    obtain ⟨t, d⟩ := x
    unfold retryExtensions
    simp only [bind_eq, pure_eq]
    split
    · split
      · rw [wp_bind, wp_modify]; exact ih _
      · exact ih _
    · split
      · rw [wp_bind]
        refine wp_orTransient_of (fun _ _ => ?_) trivial
        rw [wp_bind, wp_modify]
        exact ih _
      · exact ih _

theorem helloRetry_goes {env : PEnv} (n h) (s : Ses CSt) : wp (helloRetry env n h) s
    (fun _ s' => s.helloRetry = false ∧ s'.helloRetry = true) (fun _ _ => True) := by
  unfold helloRetry
  simp only [bind_eq, pure_eq]
  rw [wp_bind, wp_get]
  split
  · rw [wp_bind, wp_onEng']; trivial
  · rename_i hr
    have hr : s.helloRetry = false := by simpa using hr
    rw [wp_bind]
    refine wp_of (fun _ s1 _ => ?_) (fun _ _ _ => trivial)
    rw [wp_bind]
    refine wp_check_of (fun _ => ?_) trivial
    rw [wp_bind, wp_setSuite, wp_bind]
    refine wp_check_of (fun _ => ?_) trivial
    rw [wp_bind, wp_onEng]
    refine wp_of (fun _ _ _ => ?_) (fun _ _ _ => trivial)
    rw [wp_bind, wp_onEng]
    refine wp_of (fun _ _ _ => ?_) (fun _ _ _ => trivial)
    rw [wp_bind, wp_onEng', wp_bind, wp_modify, wp_pure]
    exact ⟨hr, rfl⟩

theorem serverHello_goes {env : PEnv} (h) (s : Ses CSt) : wp (serverHello env h) s
    (fun new _ => new = .awaitEncryptedExtensions) (fun _ _ => True) := by
  have : Gives (· = CSt.awaitEncryptedExtensions) (serverHello env h) := by
    unfold serverHello; simp only [bind_eq, pure_eq]; gives
  exact wp_of (fun a s' h => this s a (by rw [h])) (fun _ _ _ => trivial)

theorem awaitServerHello_goes {env : PEnv} (s : Ses CSt) : wp (awaitServerHello env) s
    (fun new s' => new = .sendClientHello → s.helloRetry = false ∧ s'.helloRetry = true) (fun _ _ => True) := by
  unfold awaitServerHello
  simp only [bind_eq, pure_eq]
  rw [wp_bind, wp_get, wp_bind, wp_onEng]
  refine wp_of (fun m e _ => ?_) (fun _ _ _ => trivial)
  split
  · rw [wp_pure]; nofun
  · split
    · exact wp_mono (helloRetry_goes _ _ _) (fun _ _ h _ => h) (fun _ _ h => h)
    · exact wp_mono (serverHello_goes _ _) (fun _ _ h g => by rw [h] at g; cases g) (fun _ _ h => h)
  · trivial

theorem falls {env : PEnv} (hs : Slim env.toEnv) : Falls role env (fun s => left s.st s.helloRetry) where
  ends := step_fin hs
  low s := by
    unfold left
    split <;> decide
  falls s new s' hx := by
    have hn : new ∈ succ s.st := step_succ env s.st s new (by
      show (C13.step env s.st s).1 = _
      rw [show C13.step env s.st s = (.ok new, s') from hx])
    by_cases h1 : s.st = .sendClientHello
    · rw [h1] at hx
      have h2 := wp_ok (sendClientHello_goes s) hx
      dsimp only
      rw [h1] at hn ⊢
      rw [h2, show new = CSt.awaitServerHello from List.mem_singleton.mp hn]
      right; cases s.helloRetry <;> simp [left]
    by_cases h2 : s.st = .awaitServerHello
    · rw [h2] at hx
      have h3 := wp_ok (awaitServerHello_goes s) hx
      dsimp only
      rw [h2] at hn ⊢
      by_cases h4 : new = .sendClientHello
      · obtain ⟨h5, h6⟩ := h3 h4
        rw [h4, h5, h6]; right; simp [left]
      · exact left_hello hn h4 _ _
    exact (left_next hn h1 h2).imp_right fun h => h _ _

end C13

namespace S13

/-- States left to go through. -/
def left : SSt → Nat
  | .awaitClientHello => 14
  | .sendServerHello => 13
  | .sendEncryptedExtensions => 12
  | .sendCertificateRequest => 11
  | .sendCertificate => 10
  | .sendCertificateVerify => 9
  | .sendFinished => 8
  | .awaitCertificate => 7
  | .awaitCertificateVerify => 6
  | .awaitFinished => 5
  | .awaitApplicationData => 4
  | .halfClosedLocal => 3
  | .closed => 2

theorem left_next {st new : SSt} (h : new ∈ succ st) : new = st ∨ left new < left st := by
  revert h
  cases st <;> cases new <;> simp [succ, left]

theorem falls {env : PEnv} (hs : Slim env.toEnv) : Falls role env (fun s => left s.st) where
  ends := step_fin hs
  low s := by
    show left s.st < 40
    cases s.st <;> decide
  falls s new s' hx := left_next (step_succ env s.st s new (by
    show (S13.step env s.st s).1 = _
    rw [show S13.step env s.st s = (.ok new, s') from hx]))

end S13
end Verif.E13

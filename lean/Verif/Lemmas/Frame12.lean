import Verif.Lemmas.Hist12
/-!
# A relation on engines kept by every handshake state, DTLS 1.2
-/
namespace Verif.E12
open Verif Wire Window Timer Aead M

/-- `U` is a preorder that holds between the engine before and after everything a handshake state does
before the session is announced as connected. -/
structure HsFrame (env : Env) (U : Eng → Eng → Prop) : Prop where
  refl : ∀ e, U e e
  trans : ∀ a b c, U a b → U b c → U a c
  handshake : ∀ e t b, U e (createHandshake env t b e).2
  ccs : ∀ e, U e (createRecord env ctCCS 0 true false [1] e).2
  nextHandshake : ∀ e t, U e (nextHandshake env t e).2
  nextRecord : ∀ e c, U e (nextRecord c e).2
  enablePeer : ∀ e, U e (enablePeerEncryption env e).2
  flightBegin : ∀ e, U e (flightBegin env e)
  resetServer : ∀ e, U e (resetServerForHvr e)
  resetClient : ∀ e, U e (resetClientForHvr e)
  dropCcs : ∀ e, U e (dropPendingCcs e)
  tick : ∀ e, U e { e with tick := e.tick + 1 }
  suite : ∀ e cs, U e (setCipherSuite env cs e).2
  master : ∀ e m, U e { e with master := some m }
  keys : ∀ e k, U e { e with keys := some k }

/-- The same for all handshake states. -/
structure Frame (env : Env) (U : Eng → Eng → Prop) : Prop extends HsFrame env U where
  flightStop : ∀ e, U e (flightStop e)
  release : ∀ e, U e (releaseAppData e)

/-- What suffices for the receive path. -/
structure InFrame (env : Env) (U : Eng → Eng → Prop) : Prop where
  refl : ∀ e, U e e
  trans : ∀ a b c, U a b → U b c → U a c
  recv : ∀ e p, U e (recordsParse env p e).2
  resend : ∀ e, U e (flightResend env e).2
  rx : ∀ e rx t, U e { e with rx := rx, tick := t }
  peerEnc : ∀ e, U e { e with peerEnc := true }

namespace InFrame
variable {env : Env} {U : Eng → Eng → Prop}

theorem insertIncoming (h : InFrame env U) (rs : List Rx) (e : Eng) : U e (insertIncoming env rs e).2 := by
  have h1 : ∀ rs e, U e (insertHs env rs e).2 := by
    intro rs e
    unfold insertHs
    dsimp only
    split
    · exact h.rx e _ _
    · exact h.rx e e.rx _
  have h2 : ∀ rs e, U e (insertBySeq env rs e).2 := by
    intro rs e
    unfold insertBySeq
    dsimp only
    repeat' split
    all_goals first
      | exact h.rx e _ _
      | exact h.rx e e.rx _
  have h4 : ∀ rs x n e, U e (insertHandshakeTail env rs x n e).2 := by
    intro rs x n e
    unfold insertHandshakeTail
    repeat' split
    all_goals first
      | exact h1 _ _
      | exact h.refl _
  unfold E12.insertIncoming
  split
  · exact h.refl e
  split
  · exact h.refl e
  split
  · rw [bind_snd]
    have h3 : ∀ rs, U e (maybeResend env rs e).2 := by
      intro rs
      unfold maybeResend
      repeat' split
      all_goals first
        | exact h.resend e
        | exact h.refl e
    split
    · exact h.trans _ _ _ (h3 _) (h4 _ _ _ _)
    · exact h3 _
  · unfold insertNonHandshake
    repeat' split
    all_goals first
      | exact h2 _ _
      | exact h.refl _

theorem parsePacket (h : InFrame env U) (p : Bytes) (e : Eng) : U e (parsePacket env p e).2 := by
  unfold E12.parsePacket
  rw [bind_snd]
  have h1 := h.recv e p
  split
  · split
    · exact h1
    · exact h.trans _ _ _ h1 (h.insertIncoming ..)
  · exact h1

theorem reparse (h : InFrame env U) (l : List Bytes) (e : Eng) : U e (reparse env l e).2 := by
  induction l generalizing e with
  | nil => exact h.refl e
  | cons b rest ih =>
    unfold E12.reparse
    rw [bind_snd]
    have h1 := h.parsePacket b e
    split
    · exact h.trans _ _ _ h1 (ih _)
    · exact h1

theorem enablePeer (h : InFrame env U) (e : Eng) : U e (enablePeerEncryption env e).2 := by
  unfold enablePeerEncryption
  dsimp only
  split
  · exact h.peerEnc e
  · refine h.trans _ _ _ (h.peerEnc e) (h.trans _ _ _ (h.rx _ _ _) (h.reparse _ _))

end InFrame

section
variable {St : Type}

/-- `m` keeps the state, the queue and the clock and relates the engines by `U`. -/
def Fr (U : Eng → Eng → Prop) {α : Type} (m : P St α) : Prop :=
  ∀ s, U s.eng (m s).2.eng ∧ (m s).2.queued = s.queued ∧ (m s).2.st = s.st ∧ (m s).2.lastNow = s.lastNow

variable {env : Env} {U : Eng → Eng → Prop} {α β : Type}

theorem Fr.pure (hf : HsFrame env U) (a : α) : Fr U (M.pure a : P St α) := fun s => ⟨hf.refl s.eng, rfl, rfl, rfl⟩
theorem Fr.get (hf : HsFrame env U) : Fr U (M.get : P St (Ses St)) := fun s => ⟨hf.refl s.eng, rfl, rfl, rfl⟩
theorem Fr.fail (hf : HsFrame env U) (f : Fault) : Fr U (M.fail f : P St α) := fun s => ⟨hf.refl s.eng, rfl, rfl, rfl⟩
theorem Fr.fatal (hf : HsFrame env U) (e : Error) : Fr U (M.fatal e : P St α) := .fail hf _
theorem Fr.transient (hf : HsFrame env U) : Fr U (M.transient : P St α) := .fail hf _
theorem Fr.panic (hf : HsFrame env U) : Fr U (M.panic : P St α) := .fail hf _

theorem Fr.bind (hf : HsFrame env U) {m : P St α} {f : α → P St β} (h : Fr U m) (g : ∀ a, Fr U (f a)) :
    Fr U (M.bind m f) := by
  intro s
  rw [bind_snd]
  obtain ⟨h1, h2, h3, h4⟩ := h s
  split
  · obtain ⟨g1, g2, g3, g4⟩ := g _ (m s).2
    exact ⟨hf.trans _ _ _ h1 g1, g2.trans h2, g3.trans h3, g4.trans h4⟩
  · exact ⟨h1, h2, h3, h4⟩

theorem Fr.modify {f : Ses St → Ses St} (he : ∀ s, U s.eng (f s).eng)
    (hq : ∀ s, (f s).queued = s.queued) (hs : ∀ s, (f s).st = s.st) (hn : ∀ s, (f s).lastNow = s.lastNow) :
    Fr U (M.modify f) := fun s => ⟨he s, hq s, hs s, hn s⟩

theorem Fr.check (hf : HsFrame env U) (c : Bool) (e : Error) : Fr U (check c e : P St Unit) := by
  unfold E12.check; split
  · exact .pure hf _
  · exact .fatal hf _
theorem Fr.orFatal (hf : HsFrame env U) (o : Option α) (e : Error) : Fr U (orFatal o e : P St α) := by
  cases o
  · exact .fatal hf _
  · exact .pure hf _
theorem Fr.orPanic (hf : HsFrame env U) (o : Option α) : Fr U (orPanic o : P St α) := by
  cases o
  · exact .panic hf
  · exact .pure hf _
theorem Fr.orTransient (hf : HsFrame env U) (o : Option α) : Fr U (orTransient o : P St α) := by
  cases o
  · exact .transient hf
  · exact .pure hf _
theorem Fr.onEng {m : E α} (h : ∀ e, U e (m e).2) : Fr U (E12.onEng m : P St α) := fun s => ⟨h s.eng, rfl, rfl, rfl⟩
theorem Fr.onEng' {f : Eng → Eng} (h : ∀ e, U e (f e)) : Fr U (E12.onEng' f : P St Unit) :=
  fun s => ⟨h s.eng, rfl, rfl, rfl⟩
theorem Fr.verifyData (hf : HsFrame env U) (b) :
    Fr U (E12.onEng (generateVerifyData env b) : P St Bytes) :=
  .onEng fun e => by rw [generateVerifyData_snd]; exact hf.refl e
theorem Fr.drawTick (hf : HsFrame env U) : Fr U (drawTick : P St Nat) := fun s => ⟨hf.tick s.eng, rfl, rfl, rfl⟩

/-- Prove `Fr U` of a function by its syntax; `hf : HsFrame env U` in context. -/
macro "fr" hf:ident : tactic => `(tactic|
  repeat' first
    | with_reducible exact Fr.pure $hf _
    | with_reducible exact Fr.get $hf
    | with_reducible exact Fr.fatal $hf _
    | with_reducible exact Fr.transient $hf
    | with_reducible exact Fr.panic $hf
    | with_reducible exact Fr.fail $hf _
    | with_reducible exact Fr.check $hf _ _
    | with_reducible exact Fr.orFatal $hf _ _
    | with_reducible exact Fr.orPanic $hf _
    | with_reducible exact Fr.orTransient $hf _
    | with_reducible exact Fr.onEng fun _ => HsFrame.handshake $hf _ _ _
    | with_reducible exact Fr.onEng fun _ => HsFrame.ccs $hf _
    | with_reducible exact Fr.onEng fun _ => HsFrame.nextHandshake $hf _ _
    | with_reducible exact Fr.onEng fun _ => HsFrame.nextRecord $hf _ _
    | with_reducible exact Fr.onEng fun _ => HsFrame.enablePeer $hf _
    | with_reducible exact Fr.onEng fun _ => HsFrame.suite $hf _ _
    | with_reducible exact Fr.verifyData $hf _
    | with_reducible exact Fr.onEng' (HsFrame.flightBegin $hf)
    | with_reducible exact Fr.onEng' (HsFrame.resetServer $hf)
    | with_reducible exact Fr.onEng' (HsFrame.resetClient $hf)
    | with_reducible exact Fr.onEng' (HsFrame.dropCcs $hf)
    | with_reducible exact Fr.drawTick $hf
    | with_reducible refine Fr.modify ?_ ?_ ?_ ?_ <;>
        first | exact fun _ => rfl | exact fun _ => HsFrame.refl $hf _ | exact fun _ => HsFrame.master $hf _ _
              | exact fun _ => HsFrame.keys $hf _ _
    | assumption
    | with_reducible refine Fr.bind $hf ?_ (fun _ => ?_)
    | split)

end

section shared
variable {St : Type} {env : PEnv} {U : Eng → Eng → Prop}

theorem announceConnected_fr (hf : Frame env.toEnv U) (a : St) (f g) : Fr U (announceConnected env a f g) := by
  unfold announceConnected; simp only [bind_eq, pure_eq]
  have hh := hf.toHsFrame
  have h1 : Fr U (E12.onEng' E12.flightStop : P St Unit) := .onEng' hf.flightStop
  have h2 : Fr U (E12.onEng' releaseAppData : P St Unit) := .onEng' hf.release
  fr hh
theorem awaitChangeCipherSpec_fr (hf : HsFrame env.toEnv U) (a b : St) : Fr U (awaitChangeCipherSpec env a b) := by
  unfold awaitChangeCipherSpec; simp only [bind_eq, pure_eq]; fr hf
theorem deriveMaster_fr (hf : HsFrame env.toEnv U) (a b c d) : Fr U (deriveMaster env a b c d : P St Unit) := by
  unfold deriveMaster; simp only [bind_eq]; fr hf
end shared

namespace C12
variable {env : PEnv} {U : Eng → Eng → Prop}

theorem serverExtensions_fr (hf : HsFrame env.toEnv U) (l b) : Fr U (serverExtensions env l b) := by
  induction l generalizing b with
  | nil => exact .pure hf _
  | cons x rest ih =>
    obtain ⟨t, d⟩ := x
    unfold serverExtensions
    simp only [bind_eq]
    fr hf
    all_goals exact ih _

theorem hs_fr (hf : HsFrame env.toEnv U) (st : CSt) (h : st ≠ .awaitApplicationData)
    (h2 : st = .awaitFinished → ∀ a f g, Fr U (announceConnected env (St := CSt) a f g)) : Fr U (C12.step env st) := by
  have h1 := fun l b => serverExtensions_fr hf l b
  have h3 := fun a b => awaitChangeCipherSpec_fr (St := CSt) hf a b
  have h4 := fun a b c d => deriveMaster_fr (St := CSt) hf a b c d
  cases st
  case awaitApplicationData => exact absurd rfl h
  all_goals
    unfold step
    first
      | exact h3 _ _
      | (unfold sendClientHello; simp only [bind_eq, pure_eq]; fr hf; done)
      | (unfold awaitHelloVerifyRequest; simp only [bind_eq, pure_eq]; fr hf; done)
      | (unfold awaitServerHello; simp only [bind_eq, pure_eq]; fr hf; exact h1 _ _; done)
      | (unfold awaitCertificate; simp only [bind_eq, pure_eq]; fr hf; done)
      | (unfold awaitServerKeyExchange awaitServerKeyExchangePsk awaitServerKeyExchangeEcdhe processEcdh
         simp only [bind_eq, pure_eq]; fr hf; done)
      | (unfold awaitCertificateRequest; simp only [bind_eq, pure_eq]; fr hf; done)
      | (unfold awaitServerHelloDone; simp only [bind_eq, pure_eq]; fr hf; done)
      | (unfold sendCertificate; simp only [bind_eq, pure_eq]; fr hf; done)
      | (unfold sendClientKeyExchange clientKeyExchangeBody; simp only [bind_eq, pure_eq]; fr hf; done)
      | (unfold sendCertificateVerify certificateVerifyBody; simp only [bind_eq, pure_eq]; fr hf; done)
      | (unfold sendChangeCipherSpec deriveKeys; simp only [bind_eq, pure_eq]; fr hf; exact h4 _ _ _ _; done)
      | (unfold sendFinished; simp only [bind_eq, pure_eq]; fr hf; done)
      | (unfold awaitNewSessionTicket; simp only [bind_eq, pure_eq]; fr hf; done)
      | (unfold awaitFinished; simp only [bind_eq, pure_eq]; fr hf; exact h2 rfl _ _ _; done)
      | exact .pure hf _

theorem step_fr (hf : Frame env.toEnv U) (st : CSt) (h : st ≠ .awaitApplicationData) : Fr U (C12.step env st) :=
  hs_fr hf.toHsFrame st h fun _ => announceConnected_fr hf

end C12

namespace S12
variable {env : PEnv} {U : Eng → Eng → Prop}

theorem clientExtensions_fr (hf : HsFrame env.toEnv U) (l x) : Fr U (clientExtensions env l x) := by
  induction l generalizing x with
  | nil => exact .pure hf _
  | cons e rest ih =>
    obtain ⟨t, d⟩ := e
    unfold clientExtensions
    simp only [bind_eq]
    fr hf
    all_goals exact ih _

theorem finishClientKx_fr (hf : HsFrame env.toEnv U) (n) : Fr U (finishClientKx env n) := by
  have h4 := fun a b c d => deriveMaster_fr (St := SSt) hf a b c d
  unfold finishClientKx; simp only [bind_eq, pure_eq]; fr hf
  exact h4 _ _ _ _
theorem clientKxEcdh_fr (hf : HsFrame env.toEnv U) (n) : Fr U (clientKxEcdh env n) := by
  unfold clientKxEcdh; simp only [bind_eq]; fr hf
theorem clientKxPsk_fr (hf : HsFrame env.toEnv U) (n) : Fr U (clientKxPsk env n) := by
  unfold clientKxPsk; simp only [bind_eq]; fr hf

theorem hs_fr (hf : HsFrame env.toEnv U) (st : SSt) (h : st ≠ .awaitApplicationData)
    (h2 : st = .sendFinished → ∀ a f g, Fr U (announceConnected env (St := SSt) a f g)) : Fr U (S12.step env st) := by
  have h1 := fun l b => clientExtensions_fr hf l b
  have h3 := fun a b => awaitChangeCipherSpec_fr (St := SSt) hf a b
  have h4 := fun n => finishClientKx_fr hf n
  have h5 := fun n => clientKxEcdh_fr hf n
  have h6 := fun n => clientKxPsk_fr hf n
  cases st
  case awaitApplicationData => exact absurd rfl h
  all_goals
    unfold step
    first
      | exact h3 _ _
      | (unfold awaitClientHello acceptClientHello sendHelloVerify; simp only [bind_eq, pure_eq]; fr hf
         exact h1 _ _; done)
      | (unfold sendServerHello; simp only [bind_eq, pure_eq]; fr hf; done)
      | (unfold sendCertificate; simp only [bind_eq, pure_eq]; fr hf; done)
      | (unfold sendServerKeyExchange sendServerKeyExchangePsk sendServerKeyExchangeEcdhe serverKeyExchangeBody
         simp only [bind_eq, pure_eq]; fr hf; done)
      | (unfold sendCertificateRequest; simp only [bind_eq, pure_eq]; fr hf; done)
      | (unfold sendServerHelloDone; simp only [bind_eq, pure_eq]; fr hf; done)
      | (unfold awaitCertificate; simp only [bind_eq, pure_eq]; fr hf; done)
      | (unfold awaitClientKeyExchange; simp only [bind_eq, pure_eq]; fr hf
         all_goals first | exact h4 _ | exact h5 _ | exact h6 _)
      | (unfold awaitCertificateVerify; simp only [bind_eq, pure_eq]; fr hf; done)
      | (unfold awaitFinished; simp only [bind_eq, pure_eq]; fr hf; done)
      | (unfold sendChangeCipherSpec; simp only [bind_eq, pure_eq]; fr hf; done)
      | (unfold sendFinished; simp only [bind_eq]; fr hf; exact h2 rfl _ _ _; done)
      | exact .pure hf _

theorem step_fr (hf : Frame env.toEnv U) (st : SSt) (h : st ≠ .awaitApplicationData) : Fr U (S12.step env st) :=
  hs_fr hf.toHsFrame st h fun _ => announceConnected_fr hf

end S12

/-- What both roles have in common. -/
structure RoleOk (R : Role) (env : PEnv) : Prop where
  ne : R.app ≠ R.closed
  app : R.step env R.app = awaitApplicationData env R.app R.closed
  closed : R.step env R.closed = M.pure R.closed
  fr : ∀ {U : Eng → Eng → Prop}, Frame env.toEnv U → ∀ st, st ≠ R.app → Fr U (R.step env st)

theorem C12.roleOk (env : PEnv) : RoleOk C12.role env :=
  ⟨by decide, rfl, rfl, fun hf st h => C12.step_fr hf st h⟩

theorem S12.roleOk (env : PEnv) : RoleOk S12.role env :=
  ⟨by decide, rfl, rfl, fun hf st h => S12.step_fr hf st h⟩

end Verif.E12

import Verif.Lemmas.Monad
import Verif.Model.Client13
import Verif.Model.Server13
/-!
# A relation on engines kept by every step of a DTLS 1.3 session
-/
namespace Verif.E13
open Verif Wire Window Timer Aead M

section wp
variable {St α : Type} {s : Ses St}

@[simp] theorem wp_onEng (m : E α) (Q : α → Ses St → Prop) (F) :
    wp (onEng m) s Q F =
      wp m s.eng (fun a e => Q a { s with eng := e }) (fun f e => F f { s with eng := e }) :=
  wp_zoom

@[simp] theorem wp_onEng' (f : Eng → Eng) (Q : Unit → Ses St → Prop) (F) :
    wp (onEng' f) s Q F = Q () { s with eng := f s.eng } := rfl

@[simp] theorem wp_setSuite (n : Nat) (Q : Unit → Ses St → Prop) (F) :
    wp (setSuite n) s Q F = Q () { s with eng := { s.eng with suite := some n } } := rfl

@[simp] theorem wp_drawTick (Q : Nat → Ses St → Prop) (F) :
    wp drawTick s Q F = Q s.eng.tick { s with eng := { s.eng with tick := s.eng.tick + 1 } } := rfl

theorem wp_check (c : Bool) (e : Error) (Q : Unit → Ses St → Prop) (F) :
    wp (check c e) s Q F = if c then Q () s else F (.fatal e) s := by
  unfold check; split <;> rfl

theorem wp_check_of {c : Bool} {e : Error} {Q : Unit → Ses St → Prop}
    {F : Fault → Ses St → Prop} (h1 : c = true → Q () s) (h2 : F (.fatal e) s) :
    wp (check c e) s Q F := by
  rw [wp_check]; split
  · exact h1 ‹_›
  · exact h2

theorem wp_orFatal_of {o : Option α} {e : Error} {Q : α → Ses St → Prop}
    {F : Fault → Ses St → Prop} (h1 : ∀ a, o = some a → Q a s) (h2 : F (.fatal e) s) :
    wp (orFatal o e) s Q F := by
  cases o
  · exact h2
  · exact h1 _ rfl

theorem wp_orPanic_of {o : Option α} {Q : α → Ses St → Prop}
    {F : Fault → Ses St → Prop} (h1 : ∀ a, o = some a → Q a s) (h2 : F .panic s) :
    wp (orPanic o) s Q F := by
  cases o
  · exact h2
  · exact h1 _ rfl

theorem wp_orTransient_of {o : Option α} {Q : α → Ses St → Prop}
    {F : Fault → Ses St → Prop} (h1 : ∀ a, o = some a → Q a s) (h2 : F .transient s) :
    wp (orTransient o) s Q F := by
  cases o
  · exact h2
  · exact h1 _ rfl
end wp

/-- `U` is a preorder that holds between the engine before and after everything a handshake state does,
except for what `KeyFrame` lists; for stopping the timers only if `stop`. -/
structure Frame (env : Env) (U : Eng → Eng → Prop) (stop : Prop := True) : Prop where
  refl : ∀ e, U e e
  trans : ∀ a b c, U a b → U b c → U a c
  handshake : ∀ e t b, U e (createHandshake env t b e).2
  next : ∀ e a i t, U e (nextHandshakeWith env a i t e).2
  advance : ∀ e, U e (advancePeerSeq e).2
  flightBegin : ∀ e, U e (flightBegin env e)
  flightStop : stop → ∀ e, U e (flightStop e)
  tick : ∀ e, U e { e with tick := e.tick + 1 }
  suite : ∀ e cs, env.allowed.contains cs = true → U e { e with suite := some cs }
  exporter : ∀ e x, U e { e with exporter := some x }
  rollback : ∀ e n, U e { e with transcript := e.transcript.take n }
  replace : ∀ e n, U e (replaceTranscript env n e).2
  ackFinal : ∀ e, U e (sendAckRetransmittable env e).2

/-- The same for new keys, for a second ClientHello and for the end of the handshake. -/
structure KeyFrame (env : Env) (U : Eng → Eng → Prop) : Prop where
  hsKeys : ∀ e a b, U e (installHandshakeKeys env a b e).2
  appKeys : ∀ e a b, U e (installApplicationKeys env a b e).2
  enablePeer : ∀ e, U e (enablePeerEncryption env e).2
  retry : ∀ e, U e (resetForHelloRetry e)
  release : ∀ e, U e (releaseAppData e)
  retain : ∀ e, U e (releaseRetaining e)

/-- The same for a connected session. `ok` is what is known of the payloads. -/
structure AppFrame (env : Env) (ok : Bytes → Prop) (U : Eng → Eng → Prop) : Prop where
  data : ∀ e d, ok d → U e (createCipher env ctAppData e.appEpoch false d e).2
  asked : ∀ e, U e { e with needsKu := false }
  keyUpdate : ∀ e, U e (createKeyUpdate env false e).2
  auto : ∀ e, e.needsKu = true → e.kuInFlight = false →
    U e (createKeyUpdate env true { e with needsKu := false }).2
  newRecv : ∀ e, U e (updateRecvKeys env e).2
  ack : ∀ e, U e (sendAck env e).2

/-- The same for what the API adds, apart from `poll_output`. -/
structure ApiFrame (env : Env) (U : Eng → Eng → Prop) : Prop where
  packet : ∀ e p, U e (parsePacket env p e).2
  timeout : ∀ e n, U e (handleTimeout env n e).2
  alert : ∀ e, U e (createCipher env ctAlert e.appEpoch false [1, 0] e).2
  cancel : ∀ e, U e (cancelFlights e)
  abort : ∀ e, U e (abort e)

section
variable {St : Type}

/-- `m` keeps state and queued data and relates the engines by `U`. -/
def Fr (U : Eng → Eng → Prop) {α : Type} (m : P St α) : Prop :=
  ∀ s, U s.eng (m s).2.eng ∧ (m s).2.queued = s.queued ∧ (m s).2.st = s.st

variable {env : Env} {U : Eng → Eng → Prop} {stop : Prop} {α β : Type}

theorem Fr.pure (hf : Frame env U stop) (a : α) : Fr U (M.pure a : P St α) := fun s => ⟨hf.refl s.eng, rfl, rfl⟩
theorem Fr.get (hf : Frame env U stop) : Fr U (M.get : P St (Ses St)) := fun s => ⟨hf.refl s.eng, rfl, rfl⟩
theorem Fr.fail (hf : Frame env U stop) (f : Fault) : Fr U (M.fail f : P St α) := fun s => ⟨hf.refl s.eng, rfl, rfl⟩
theorem Fr.fatal (hf : Frame env U stop) (e : Error) : Fr U (M.fatal e : P St α) := .fail hf _
theorem Fr.transient (hf : Frame env U stop) : Fr U (M.transient : P St α) := .fail hf _
theorem Fr.panic (hf : Frame env U stop) : Fr U (M.panic : P St α) := .fail hf _

theorem Fr.bind (hf : Frame env U stop) {m : P St α} {f : α → P St β} (h : Fr U m) (g : ∀ a, Fr U (f a)) :
    Fr U (M.bind m f) := by
  intro s
  rw [bind_snd]
  obtain ⟨h1, h2, h3⟩ := h s
  split
  · obtain ⟨g1, g2, g3⟩ := g _ (m s).2
    exact ⟨hf.trans _ _ _ h1 g1, g2.trans h2, g3.trans h3⟩
  · exact ⟨h1, h2, h3⟩

theorem Fr.modify {f : Ses St → Ses St} (he : ∀ s, U s.eng (f s).eng)
    (hq : ∀ s, (f s).queued = s.queued) (hs : ∀ s, (f s).st = s.st) : Fr U (M.modify f) :=
  fun s => ⟨he s, hq s, hs s⟩

theorem Fr.check (hf : Frame env U stop) (c : Bool) (e : Error) : Fr U (check c e : P St Unit) := by
  unfold E13.check; split
  · exact .pure hf _
  · exact .fatal hf _
theorem Fr.orFatal (hf : Frame env U stop) (o : Option α) (e : Error) : Fr U (orFatal o e : P St α) := by
  cases o
  · exact .fatal hf _
  · exact .pure hf _
theorem Fr.orPanic (hf : Frame env U stop) (o : Option α) : Fr U (orPanic o : P St α) := by
  cases o
  · exact .panic hf
  · exact .pure hf _
theorem Fr.orTransient (hf : Frame env U stop) (o : Option α) : Fr U (orTransient o : P St α) := by
  cases o
  · exact .transient hf
  · exact .pure hf _
theorem Fr.onEng {m : E α} (h : ∀ e, U e (m e).2) : Fr U (E13.onEng m : P St α) := fun s => ⟨h s.eng, rfl, rfl⟩
theorem Fr.onEng' {f : Eng → Eng} (h : ∀ e, U e (f e)) : Fr U (E13.onEng' f : P St Unit) :=
  fun s => ⟨h s.eng, rfl, rfl⟩
theorem Fr.drawTick (hf : Frame env U stop) : Fr U (drawTick : P St Nat) := fun s => ⟨hf.tick s.eng, rfl, rfl⟩
theorem Fr.setSuite (hf : Frame env U stop) (n : Nat) (h : env.allowed.contains n = true) :
    Fr U (setSuite n : P St Unit) :=
  fun s => ⟨hf.suite s.eng _ h, rfl, rfl⟩
theorem Fr.bindCheck (hf : Frame env U stop) {c : Bool} {e : Error} {f : Unit → P St β} (h : c = true → Fr U (f ())) :
    Fr U (M.bind (E13.check c e) f) := by
  unfold E13.check
  split
  · exact h ‹_›
  · exact .fatal hf _
theorem Fr.bindFatal (hf : Frame env U stop) {o : Option α} {e : Error} {f : α → P St β}
    (h : ∀ a, o = some a → Fr U (f a)) : Fr U (M.bind (E13.orFatal o e) f) := by
  cases o
  · exact .fatal hf _
  · exact h _ rfl
/-- Prove `Fr U` of a function by its syntax; `hf : Frame env U` in context. -/
macro "fr" hf:ident : tactic => `(tactic|
  repeat' first
    | with_reducible exact Fr.pure $hf _
    | with_reducible exact Fr.get $hf
    | with_reducible exact Fr.fatal $hf _
    | with_reducible exact Fr.transient $hf
    | with_reducible exact Fr.panic $hf
    | with_reducible exact Fr.fail $hf _
    | with_reducible exact Fr.check $hf _ _
    | with_reducible exact Fr.orFatal $hf _ _
    | with_reducible exact Fr.orPanic $hf _
    | with_reducible exact Fr.orTransient $hf _
    | with_reducible exact Fr.onEng fun _ => Frame.handshake $hf _ _ _
    | with_reducible exact Fr.onEng fun _ => Frame.next $hf _ _ _ _
    | with_reducible exact Fr.onEng (Frame.advance $hf)
    | with_reducible exact Fr.onEng fun _ => Frame.replace $hf _ _
    | with_reducible exact Fr.onEng (Frame.ackFinal $hf)
    | with_reducible exact Fr.onEng' (Frame.flightBegin $hf)
    | with_reducible exact Fr.onEng' (Frame.flightStop $hf (by first | trivial | assumption))
    | with_reducible exact Fr.onEng' fun _ => Frame.rollback $hf _ _
    | with_reducible exact Fr.onEng' fun _ => Frame.exporter $hf _ _
    | with_reducible exact Fr.drawTick $hf
    | with_reducible exact Fr.setSuite $hf _ (by assumption)
    | with_reducible refine Fr.modify ?_ ?_ ?_ <;>
        first | exact fun _ => rfl | exact fun _ => Frame.refl $hf _
    | assumption
    | with_reducible refine Fr.bindCheck $hf (fun _ => ?_)
    | with_reducible refine Fr.bindFatal $hf (fun _ _ => ?_)
    | with_reducible refine Fr.bind $hf ?_ (fun _ => ?_)
    | split)

end

section shared
variable {St : Type} {env : PEnv} {U : Eng → Eng → Prop} {stop : Prop}

theorem nextHandshake_fr (hf : Frame env.toEnv U stop) (t) :
    Fr U (onEng (nextHandshake env.toEnv t) : P St (Option Body)) :=
  .onEng fun _ => hf.next _ _ _ _

theorem computeVerify_fr (hf : Frame env.toEnv U stop) (b) : Fr U (computeVerify env b : P St Bytes) := by
  unfold computeVerify; simp only [bind_eq]; fr hf
theorem installHandshake_fr (hf : Frame env.toEnv U stop)
    (hk : ∀ e a b, U e (installHandshakeKeys env.toEnv a b e).2) (b) :
    Fr U (installHandshake env b : P St Unit) := by
  unfold installHandshake; simp only [bind_eq]; fr hf
  exact .onEng fun _ => hk _ _ _
theorem installApplication_fr (hf : Frame env.toEnv U stop)
    (hk : ∀ e a b, U e (installApplicationKeys env.toEnv a b e).2) :
    Fr U (installApplication env : P St Unit) := by
  unfold installApplication; simp only [bind_eq]; fr hf
  exact .onEng fun _ => hk _ _ _
theorem certificateVerifyBody_fr (hf : Frame env.toEnv U stop) (b) :
    Fr U (certificateVerifyBody env b : P St Bytes) := by
  unfold certificateVerifyBody; simp only [bind_eq, pure_eq]; fr hf
theorem awaitCertificateVerify_fr (hf : Frame env.toEnv U stop) (b) (x y : St) :
    Fr U (awaitCertificateVerify env b x y) := by
  unfold awaitCertificateVerify; simp only [bind_eq, pure_eq]; fr hf
theorem announceConnected_fr (hf : Frame env.toEnv U stop) {f : Eng → Eng} (g : ∀ e, U e (f e)) (a : St) :
    Fr U (announceConnected env f a) := by
  have h : Fr U (onEng' f : P St Unit) := .onEng' g
  unfold announceConnected; simp only [bind_eq, pure_eq]; fr hf
end shared

namespace C13
variable {env : PEnv} {U : Eng → Eng → Prop} {stop : Prop}

theorem retryExtensions_fr (hf : Frame env.toEnv U stop) (l) : Fr U (retryExtensions env l) := by
  induction l with
  | nil => exact .pure hf _
  | cons x rest ih =>
    obtain ⟨t, d⟩ := x
    unfold retryExtensions
    simp only [bind_eq]
    fr hf

theorem encryptedExtensions_fr (hf : Frame env.toEnv U stop) (l) : Fr U (encryptedExtensions env l) := by
  induction l with
  | nil => exact .pure hf _
  | cons x rest ih =>
    obtain ⟨t, d⟩ := x
    unfold encryptedExtensions
    simp only [bind_eq]
    fr hf

theorem helloRetry_fr (hf : Frame env.toEnv U stop) (hk : ∀ e, U e (resetForHelloRetry e)) (n h) :
    Fr U (helloRetry env n h) := by
  have h1 := fun l => retryExtensions_fr hf l
  unfold helloRetry; simp only [bind_eq, pure_eq]; fr hf
  · exact h1 _
  · exact .onEng' hk

theorem serverHello_fr (hf : Frame env.toEnv U stop) (hk : KeyFrame env.toEnv U) (h) :
    Fr U (serverHello env h) := by
  have h2 := fun b => installHandshake_fr (St := CSt) hf hk.hsKeys b
  have h3 : Fr U (onEng (enablePeerEncryption env.toEnv) : P CSt Unit) := .onEng hk.enablePeer
  unfold serverHello; simp only [bind_eq, pure_eq]; fr hf
  exact h2 _

/-- States that install keys, answer a HelloRetryRequest or end the handshake. -/
def keying : CSt → Bool
  | .awaitServerHello | .awaitFinished | .sendFinished => true
  | _ => false

theorem awaitFinished_fr (hf : Frame env.toEnv U stop) (hk : KeyFrame env.toEnv U) :
    Fr U (awaitFinished env) := by
  have h1 := fun t => nextHandshake_fr (St := CSt) hf t
  have h2 := fun b => computeVerify_fr (St := CSt) hf b
  have h3 := installApplication_fr (St := CSt) hf hk.appKeys
  unfold awaitFinished; simp only [bind_eq, pure_eq]; fr hf
  exact h2 _

theorem sendFinished_fr (hf : Frame env.toEnv U stop) (hk : ∀ e, U e (releaseAppData e)) :
    Fr U (sendFinished env) := by
  have h2 := fun a => announceConnected_fr (St := CSt) (env := env) hf hk a
  have h3 := fun b => computeVerify_fr (St := CSt) hf b
  unfold sendFinished; simp only [bind_eq]; fr hf
  all_goals first | exact h3 _ | exact h2 _

theorem awaitServerHello_fr (hf : Frame env.toEnv U stop) (hk : KeyFrame env.toEnv U) :
    Fr U (awaitServerHello env) := by
  have h1 := fun t => nextHandshake_fr (St := CSt) hf t
  have h2 := fun n h => helloRetry_fr hf hk.retry n h
  have h3 := fun h => serverHello_fr hf hk h
  unfold awaitServerHello; simp only [bind_eq, pure_eq]; fr hf
  · exact h2 _ _
  · exact h3 _

theorem step_fr (hf : Frame env.toEnv U stop) (st : CSt) (h : st ≠ .awaitApplicationData)
    (h' : st ≠ .halfClosedLocal) (hn : keying st = true → KeyFrame env.toEnv U) :
    Fr U (C13.step env st) := by
  have h1 := fun t => nextHandshake_fr (St := CSt) hf t
  have h4 := fun b => certificateVerifyBody_fr (St := CSt) hf b
  have h5 := fun l => encryptedExtensions_fr hf l
  cases st
  case awaitApplicationData => exact absurd rfl h
  case halfClosedLocal => exact absurd rfl h'
  case awaitServerHello => exact awaitServerHello_fr hf (hn rfl)
  case awaitFinished => exact awaitFinished_fr hf (hn rfl)
  case sendFinished => exact sendFinished_fr hf (hn rfl).release
  case awaitCertificateVerify => exact awaitCertificateVerify_fr hf _ _ _
  case closed => exact .pure hf _
  all_goals
    unfold step
    first
      | (unfold sendClientHello; simp only [bind_eq, pure_eq]; fr hf; done)
      | (unfold awaitEncryptedExtensions; simp only [bind_eq, pure_eq]; fr hf; exact h5 _; done)
      | (unfold awaitCertificateRequest; simp only [bind_eq, pure_eq]; fr hf; done)
      | (unfold awaitCertificate; simp only [bind_eq, pure_eq]; fr hf; done)
      | (unfold sendCertificate; simp only [bind_eq, pure_eq]; fr hf; done)
      | (unfold sendCertificateVerify; simp only [bind_eq, pure_eq]; fr hf; exact h4 _; done)

end C13

namespace S13
variable {env : PEnv} {U : Eng → Eng → Prop} {stop : Prop}

theorem clientExtensions_fr (hf : Frame env.toEnv U stop) (l x) : Fr U (clientExtensions env l x) := by
  induction l generalizing x with
  | nil => exact .pure hf _
  | cons e rest ih =>
    obtain ⟨t, d⟩ := e
    unfold clientExtensions
    simp only [bind_eq]
    fr hf
    all_goals exact ih _

theorem sendRetry_fr (hf : Frame env.toEnv U stop) (hk : ∀ e, U e (resetForHelloRetry e)) (a b c)
    (ha : env.allowed.contains a = true) : Fr U (sendRetry env a b c) := by
  unfold sendRetry; simp only [bind_eq, pure_eq]; fr hf
  exact .onEng' hk

theorem acceptClientHello_fr (hf : Frame env.toEnv U stop) (a b c) (ha : env.allowed.contains a = true) : Fr U (acceptClientHello env a b c) := by
  unfold acceptClientHello; simp only [bind_eq, pure_eq]; fr hf

theorem chooseShare_fr (hf : Frame env.toEnv U stop) (hk : ∀ e, U e (resetForHelloRetry e)) (a b c)
    (ha : env.allowed.contains a = true) : Fr U (chooseShare env a b c) := by
  have h1 := fun b c => sendRetry_fr (env := env) hf hk a b c ha
  have h2 := fun b c => acceptClientHello_fr (env := env) hf a b c ha
  unfold chooseShare; simp only [bind_eq]; fr hf
  · exact h2 _ _
  · exact h1 _ _

theorem checkCookie_fr (hf : Frame env.toEnv U stop) (hk : ∀ e, U e (resetForHelloRetry e)) (a b c d)
    (ha : env.allowed.contains b = true) : Fr U (checkCookie env a b c d) := by
  have h1 := fun c d => sendRetry_fr (env := env) hf hk b c d ha
  have h2 := fun c d => chooseShare_fr (env := env) hf hk b c d ha
  unfold checkCookie; simp only [bind_eq, pure_eq]; fr hf
  all_goals first | exact h1 _ _ | exact h2 _ _

theorem selectSuite_allowed {l : List Nat} {x : Nat} (h : selectSuite env l = some x) :
    env.allowed.contains x = true := by
  unfold selectSuite at h
  have := List.find?_some h
  exact this

theorem clientHello_fr (hf : Frame env.toEnv U stop) (hk : ∀ e, U e (resetForHelloRetry e)) (a b) :
    Fr U (clientHello env a b) := by
  have h1 := fun l b => clientExtensions_fr (env := env) hf l b
  have h2 := fun a b c d h => checkCookie_fr (env := env) hf hk a b c d h
  unfold clientHello; simp only [bind_eq]; fr hf
  all_goals first | exact h1 _ _ | exact h2 _ _ _ _ (selectSuite_allowed ‹_›)

theorem awaitClientHello_fr (hf : Frame env.toEnv U stop) (hk : ∀ e, U e (resetForHelloRetry e)) :
    Fr U (awaitClientHello env) := by
  have h1 := fun a b => clientHello_fr (env := env) hf hk a b
  unfold awaitClientHello; simp only [bind_eq, pure_eq]; fr hf
  exact h1 _ _

theorem sendServerHello_fr (hf : Frame env.toEnv U stop) (hk : KeyFrame env.toEnv U) :
    Fr U (sendServerHello env) := by
  have h1 := fun b => installHandshake_fr (St := SSt) hf hk.hsKeys b
  unfold sendServerHello; simp only [bind_eq, pure_eq]; fr hf
  exact h1 _

theorem sendFinished_fr (hf : Frame env.toEnv U stop) (hk : KeyFrame env.toEnv U) :
    Fr U (sendFinished env) := by
  have h1 := installApplication_fr (St := SSt) hf hk.appKeys
  have h2 := fun b => computeVerify_fr (St := SSt) hf b
  have h3 : Fr U (onEng (enablePeerEncryption env.toEnv) : P SSt Unit) := .onEng hk.enablePeer
  unfold sendFinished; simp only [bind_eq, pure_eq]; fr hf
  exact h2 _

theorem awaitFinished_fr (hf : Frame env.toEnv U stop) (hs : stop) (hk : ∀ e, U e (releaseRetaining e)) :
    Fr U (awaitFinished env) := by
  have h1 := fun t => nextHandshake_fr (St := SSt) hf t
  have h2 := fun a => announceConnected_fr (St := SSt) (env := env) hf hk a
  have h3 := fun b => computeVerify_fr (St := SSt) hf b
  unfold awaitFinished; simp only [bind_eq, pure_eq]; fr hf
  all_goals first | exact h3 _ | exact h2 _ | exact h1 _

/-- States that install keys, send a HelloRetryRequest or end the handshake. -/
def keying : SSt → Bool
  | .awaitClientHello | .sendServerHello | .sendFinished | .awaitFinished => true
  | _ => false

/-- States that stop the timers. -/
def stops : SSt → Bool
  | .awaitCertificate | .awaitFinished => true
  | _ => false

theorem step_fr (hf : Frame env.toEnv U stop) (st : SSt) (h : st ≠ .awaitApplicationData)
    (h' : st ≠ .halfClosedLocal) (hs : stops st = true → stop) (hn : keying st = true → KeyFrame env.toEnv U) :
    Fr U (S13.step env st) := by
  have h1 := fun t => nextHandshake_fr (St := SSt) hf t
  have h4 := fun b => certificateVerifyBody_fr (St := SSt) hf b
  cases st
  case awaitApplicationData => exact absurd rfl h
  case halfClosedLocal => exact absurd rfl h'
  case awaitClientHello => exact awaitClientHello_fr hf (hn rfl).retry
  case sendServerHello => exact sendServerHello_fr hf (hn rfl)
  case sendFinished => exact sendFinished_fr hf (hn rfl)
  case awaitFinished => exact awaitFinished_fr hf (hs rfl) (hn rfl).retain
  case awaitCertificateVerify => exact awaitCertificateVerify_fr hf _ _ _
  case closed => exact .pure hf _
  all_goals
    unfold step
    first
      | (unfold sendEncryptedExtensions; simp only [bind_eq, pure_eq]; fr hf; done)
      | (unfold sendCertificateRequest; simp only [bind_eq, pure_eq]; fr hf; done)
      | (unfold sendCertificate; simp only [bind_eq, pure_eq]; fr hf; done)
      | (unfold sendCertificateVerify; simp only [bind_eq, pure_eq]; fr hf; exact h4 _; done)
      | (have hs := hs rfl; unfold awaitCertificate; simp only [bind_eq, pure_eq]; fr hf; done)

end S13
end Verif.E13

import Verif.Lemmas.Steps12
import Verif.Model.Client12
import Verif.Model.Server12
/-!
# Every API call of a DTLS 1.2 session is a sequence of engine steps
-/
namespace Verif.E12
open Verif Wire Window Timer Aead M
variable {St : Type}

section wp
variable {α : Type} {s : Ses St}

@[simp] theorem wp_onEng (m : E α) (Q : α → Ses St → Prop) (F) :
    wp (onEng m) s Q F =
      wp m s.eng (fun a e => Q a { s with eng := e }) (fun f e => F f { s with eng := e }) :=
  wp_zoom

@[simp] theorem wp_onEng' (f : Eng → Eng) (Q : Unit → Ses St → Prop) (F) :
    wp (onEng' f) s Q F = Q () { s with eng := f s.eng } := rfl

theorem wp_check (c : Bool) (e : Error) (Q : Unit → Ses St → Prop) (F) :
    wp (check c e) s Q F = if c then Q () s else F (.fatal e) s := by
  unfold check; split <;> rfl

theorem wp_orFatal (o : Option α) (e : Error) (Q : α → Ses St → Prop) (F) :
    wp (orFatal o e) s Q F = match o with | some a => Q a s | none => F (.fatal e) s := by
  unfold orFatal; split <;> rfl

theorem wp_orPanic (o : Option α) (Q : α → Ses St → Prop) (F) :
    wp (orPanic o) s Q F = match o with | some a => Q a s | none => F .panic s := by
  unfold orPanic; split <;> rfl

theorem wp_orTransient (o : Option α) (Q : α → Ses St → Prop) (F) :
    wp (orTransient o) s Q F = match o with | some a => Q a s | none => F .transient s := by
  unfold orTransient; split <;> rfl
end wp

/-- Rule for `check`. -/
theorem wp_check_of {s : Ses St} {c : Bool} {e : Error} {Q : Unit → Ses St → Prop}
    {F : Fault → Ses St → Prop} (h1 : c = true → Q () s) (h2 : F (.fatal e) s) :
    wp (check c e) s Q F := by
  rw [wp_check]; split
  · exact h1 ‹_›
  · exact h2

theorem wp_orFatal_of {α : Type} {s : Ses St} {o : Option α} {e : Error} {Q : α → Ses St → Prop}
    {F : Fault → Ses St → Prop} (h1 : ∀ a, o = some a → Q a s) (h2 : F (.fatal e) s) :
    wp (orFatal o e) s Q F := by
  rw [wp_orFatal]; split
  · exact h1 _ rfl
  · exact h2

theorem wp_orPanic_of {α : Type} {s : Ses St} {o : Option α} {Q : α → Ses St → Prop}
    {F : Fault → Ses St → Prop} (h1 : ∀ a, o = some a → Q a s) (h2 : F .panic s) :
    wp (orPanic o) s Q F := by
  rw [wp_orPanic]; split
  · exact h1 _ rfl
  · exact h2

theorem wp_orTransient_of {α : Type} {s : Ses St} {o : Option α} {Q : α → Ses St → Prop}
    {F : Fault → Ses St → Prop} (h1 : ∀ a, o = some a → Q a s) (h2 : F .transient s) :
    wp (orTransient o) s Q F := by
  rw [wp_orTransient]; split
  · exact h1 _ rfl
  · exact h2

/-! ## Functions that only make core steps -/

section calm
variable (env : PEnv) (ok : Bytes → Prop)

/-- What is queued is allowed. -/
def QOk (s : Ses St) : Prop := ∀ d ∈ s.queued, ok d

/-- `m` only makes core steps of the engine. `k`: provided there are keys. -/
def Calm (k : Prop) {α : Type} (m : P St α) : Prop :=
  ∀ s, QOk ok s → (k → s.eng.keys ≠ none) → Star (Core env.toEnv ok) s.eng (m s).2.eng ∧ QOk ok (m s).2 ∧ (m s).2.st = s.st

/-- `m` makes steps of the engine that leave the keys unset, if they are unset. -/
def Early {α : Type} (m : P St α) : Prop :=
  ∀ s, QOk ok s → s.eng.keys = none →
    Star (Step env.toEnv ok) s.eng (m s).2.eng ∧ QOk ok (m s).2 ∧ (m s).2.st = s.st ∧
      (m s).2.eng.keys = none

/-- Every result of `m` satisfies `S`. -/
def Rets {α : Type} (S : α → Prop) (m : P St α) : Prop := ∀ s a s', m s = (.ok a, s') → S a

variable {env ok} {α β : Type} {k : Prop}

theorem Star.keep {s s' : Eng} {env : Env} (h : Star (Core env ok) s s') : Keep s s' := by
  induction h with
  | refl => exact .refl _
  | tail _ hr ih => exact ih.trans hr.keep

theorem Calm.early {m : P St α} (h : Calm env ok False m) : Early env ok m := fun s hq hk =>
  have g := h s hq (·.elim)
  ⟨g.1.mono fun _ _ h => .one (.core h), g.2.1, g.2.2, g.1.keep.keys.trans hk⟩

theorem Calm.pure (a : α) : Calm env ok k (M.pure a : P St α) := fun s h _ => ⟨.refl s.eng, h, rfl⟩
theorem Calm.get : Calm env ok k (M.get : P St (Ses St)) := fun s h _ => ⟨.refl s.eng, h, rfl⟩
theorem Calm.fail (f : Fault) : Calm env ok k (M.fail f : P St α) := fun s h _ => ⟨.refl s.eng, h, rfl⟩
theorem Calm.fatal (e : Error) : Calm env ok k (M.fatal e : P St α) := .fail _
theorem Calm.transient : Calm env ok k (M.transient : P St α) := .fail _
theorem Calm.panic : Calm env ok k (M.panic : P St α) := .fail _

theorem Calm.bind {m : P St α} {f : α → P St β} (h : Calm env ok k m) (g : ∀ a, Calm env ok k (f a)) :
    Calm env ok k (M.bind m f) := by
  intro s hq hk
  rw [bind_snd]
  obtain ⟨h1, h2, h3⟩ := h s hq hk
  split
  · obtain ⟨g1, g2, g3⟩ := g _ _ h2 (fun hc => by rw [h1.keep.keys]; exact hk hc)
    exact ⟨h1.trans g1, g2, g3.trans h3⟩
  · exact ⟨h1, h2, h3⟩

theorem Calm.ite {c : Prop} [Decidable c] {m n : P St α} (h : Calm env ok k m) (g : Calm env ok k n) :
    Calm env ok k (if c then m else n) := by
  split
  · exact h
  · exact g

/-- Changing fields other than engine and queue. -/
theorem Calm.modify {f : Ses St → Ses St} (he : ∀ s, (f s).eng = s.eng)
    (hq : ∀ s, (f s).queued = s.queued) (hs : ∀ s, (f s).st = s.st) : Calm env ok k (M.modify f) :=
  fun s h _ => ⟨(he s).symm ▸ .refl _, fun d hd => h d (hq s ▸ hd), hs s⟩

theorem Calm.check (c : Bool) (e : Error) : Calm env ok k (check c e : P St Unit) := by
  unfold E12.check; exact .ite (.pure _) (.fatal _)

theorem Calm.orFatal (o : Option α) (e : Error) : Calm env ok k (orFatal o e : P St α) := by
  cases o
  · exact .fatal _
  · exact .pure _

theorem Calm.orPanic (o : Option α) : Calm env ok k (orPanic o : P St α) := by
  cases o
  · exact .panic
  · exact .pure _

theorem Calm.orTransient (o : Option α) : Calm env ok k (orTransient o : P St α) := by
  cases o
  · exact .transient
  · exact .pure _

theorem Calm.onEng {m : E α} (h : ∀ e, Core env.toEnv ok e (m e).2) : Calm env ok k (onEng m : P St α) :=
  fun s hq _ => ⟨.one (h s.eng), hq, rfl⟩

theorem Calm.onEng' {f : Eng → Eng} (h : ∀ e, Core env.toEnv ok e (f e)) :
    Calm env ok k (onEng' f : P St Unit) := fun s hq _ => ⟨.one (h s.eng), hq, rfl⟩

theorem Calm.record (h : ok f) (c e sv fo) (hk : e = 0 ∨ k) :
    Calm env ok k (E12.onEng (createRecord env.toEnv c e sv fo f) : P St Unit) := fun s hq hs =>
  ⟨.one (.record _ _ _ _ _ _ h fun he => hs (hk.resolve_left (by omega))), hq, rfl⟩

theorem Calm.handshake (t b) (hk : msgEpoch t = 0 ∨ k) :
    Calm env ok k (E12.onEng (createHandshake env.toEnv t b) : P St Unit) := fun s hq hs =>
  ⟨.one (.handshake _ _ _ fun he => hs (hk.resolve_left (by omega))), hq, rfl⟩

theorem Calm.nextHandshake (t) :
    Calm env ok k (E12.onEng (nextHandshake env.toEnv t) : P St (Option Body)) :=
  .onEng fun _ => .nextHandshake _ _

theorem Calm.nextRecord (c) : Calm env ok k (E12.onEng (nextRecord c) : P St Bool) :=
  .onEng fun _ => .nextRecord _ _

theorem Calm.packet (p) : Calm env ok k (E12.onEng (parsePacket env.toEnv p) : P St Unit) :=
  .onEng fun _ => .packet _ _

theorem Calm.enablePeer : Calm env ok True (E12.onEng (enablePeerEncryption env.toEnv) : P St Unit) :=
  fun _ hq hs => ⟨.one (.enablePeer _ (hs trivial)), hq, rfl⟩

theorem Calm.timeout (n) : Calm env ok k (E12.onEng (handleTimeout env.toEnv n) : P St Unit) :=
  .onEng fun _ => .timeout _ _

theorem Calm.verifyData (b) :
    Calm env ok k (E12.onEng (generateVerifyData env.toEnv b) : P St Bytes) := by
  intro s hq _
  refine ⟨?_, hq, rfl⟩
  show Star _ s.eng (generateVerifyData env.toEnv b s.eng).2
  unfold generateVerifyData
  repeat' split
  all_goals exact .refl _

theorem Calm.flightBegin : Calm env ok k (E12.onEng' (flightBegin env.toEnv) : P St Unit) :=
  .onEng' fun _ => .flightBegin _
theorem Calm.flightStop : Calm env ok k (E12.onEng' flightStop : P St Unit) :=
  .onEng' fun _ => .flightStop _
theorem Calm.abort : Calm env ok k (E12.onEng' abort : P St Unit) := .onEng' fun _ => .abort _
theorem Calm.release : Calm env ok k (E12.onEng' releaseAppData : P St Unit) :=
  .onEng' fun _ => .release _
theorem Calm.discard : Calm env ok k (E12.onEng' discardPendingWrites : P St Unit) :=
  .onEng' fun _ => .discard _
theorem Calm.resetServer : Calm env ok k (E12.onEng' resetServerForHvr : P St Unit) :=
  .onEng' fun _ => .resetServer _
theorem Calm.resetClient : Calm env ok k (E12.onEng' resetClientForHvr : P St Unit) :=
  .onEng' fun _ => .resetClient _
theorem Calm.dropCcs : Calm env ok k (E12.onEng' dropPendingCcs : P St Unit) :=
  .onEng' fun _ => .dropCcs _
theorem Calm.drawTick : Calm env ok k (drawTick : P St Nat) := fun s hq _ => ⟨.one (.tick s.eng), hq, rfl⟩

theorem Early.bind {m : P St α} {f : α → P St β} (h : Early env ok m) (g : ∀ a, Early env ok (f a)) :
    Early env ok (M.bind m f) := by
  intro s hq hk
  rw [bind_snd]
  obtain ⟨h1, h2, h4, h3⟩ := h s hq hk
  split
  · obtain ⟨g1, g2, g4, g3⟩ := g _ _ h2 h3
    exact ⟨h1.trans g1, g2, g4.trans h4, g3⟩
  · exact ⟨h1, h2, h4, h3⟩

theorem Early.setSuite (cs : Nat) :
    Early env ok (E12.onEng (setCipherSuite env.toEnv cs) : P St Unit) := by
  intro s hq hk
  refine ⟨.one (.suite s.eng cs hk), hq, rfl, ?_⟩
  show (setCipherSuite env.toEnv cs s.eng).2.keys = none
  unfold setCipherSuite
  split <;> exact hk

end calm

section rets
variable {α β : Type} {S : α → Prop}

theorem Rets.pure {a : α} (h : S a) : Rets S (M.pure a : P St α) := by
  intro s a' s' he
  cases he
  exact h
theorem Rets.fail (f : Fault) : Rets S (M.fail f : P St α) := by
  intro s a' s' he
  cases he
theorem Rets.fatal (e : Error) : Rets S (M.fatal e : P St α) := .fail _
theorem Rets.transient : Rets S (M.transient : P St α) := .fail _
theorem Rets.panic : Rets S (M.panic : P St α) := .fail _
theorem Rets.bind {m : P St β} {f : β → P St α} (h : ∀ b, Rets S (f b)) : Rets S (M.bind m f) := by
  intro s a s' he
  obtain ⟨b, s1, _, h2⟩ := bind_ok he
  exact h b _ _ _ h2

end rets

/-- Prove `Rets` of a function by its syntax. -/
macro "rets" : tactic => `(tactic|
  repeat' first
    | with_reducible exact Rets.fail _
    | with_reducible exact Rets.fatal _
    | with_reducible exact Rets.transient
    | with_reducible exact Rets.panic
    | (with_reducible refine Rets.pure ?_) <;> first | rfl | (simp; done)
    | with_reducible refine Rets.bind (fun _ => ?_)
    | assumption
    | split)

/-- Prove `Calm` of a function by its syntax. -/
macro "calm" : tactic => `(tactic|
  repeat' first
    | with_reducible exact Calm.pure _
    | with_reducible exact Calm.get
    | with_reducible exact Calm.fatal _
    | with_reducible exact Calm.transient
    | with_reducible exact Calm.panic
    | with_reducible exact Calm.fail _
    | with_reducible exact Calm.check _ _
    | with_reducible exact Calm.orFatal _ _
    | with_reducible exact Calm.orPanic _
    | with_reducible exact Calm.orTransient _
    | (with_reducible refine Calm.handshake _ _ ?_) <;> first | exact Or.inl rfl | exact Or.inr trivial
    | with_reducible exact Calm.nextHandshake _
    | with_reducible exact Calm.nextRecord _
    | with_reducible exact Calm.enablePeer
    | with_reducible exact Calm.verifyData _
    | with_reducible exact Calm.flightBegin
    | with_reducible exact Calm.flightStop
    | with_reducible exact Calm.release
    | with_reducible exact Calm.discard
    | with_reducible exact Calm.resetServer
    | with_reducible exact Calm.resetClient
    | with_reducible exact Calm.dropCcs
    | with_reducible exact Calm.drawTick
    | with_reducible refine Calm.modify ?_ ?_ ?_ <;> exact fun _ => rfl
    | assumption
    | with_reducible refine Calm.bind ?_ (fun _ => ?_)
    | split)

section shared
variable {env : PEnv} {ok : Bytes → Prop} {k : Prop}

theorem drainLoop_calm (l : List Bytes) (h : ∀ d ∈ l, ok d) : Calm env ok True (drainLoop env l : P St Unit) := by
  induction l with
  | nil => exact .pure _
  | cons d rest ih =>
    refine Calm.bind (.record (h d (by simp)) _ _ _ _ (.inr trivial)) fun _ => ih fun x hx => h x (by simp [hx])

theorem drainQueued_calm : Calm env ok True (drainQueued env : P St Unit) := by
  intro s hq hk
  exact drainLoop_calm s.queued hq { s with queued := [] } (by simp [QOk]) hk

theorem closeNotify_calm (h2 : ok [1, 0]) : Calm env ok True (sendCloseNotify env : P St Unit) :=
  .record h2 _ _ _ _ (.inr trivial)

theorem awaitApplicationData_calm (h2 : ok [1, 0]) (a b : St) :
    Calm env ok True (awaitApplicationData env a b) := by
  have := drainQueued_calm (St := St) (env := env) (ok := ok)
  have := closeNotify_calm (St := St) (env := env) h2
  unfold awaitApplicationData
  simp only [bind_eq, pure_eq]
  calm

theorem announceConnected_calm (a : St) (f g) : Calm env ok k (announceConnected env a f g) := by
  unfold announceConnected
  simp only [bind_eq, pure_eq]
  calm

theorem awaitChangeCipherSpec_calm (a b : St) : Calm env ok True (awaitChangeCipherSpec env a b) := by
  unfold awaitChangeCipherSpec
  simp only [bind_eq, pure_eq]
  calm

end shared

namespace C12
variable {env : PEnv} {ok : Bytes → Prop} {k : Prop}

theorem sendClientHello_calm : Calm env ok k (sendClientHello env) := by
  unfold sendClientHello; simp only [bind_eq, pure_eq]; calm
theorem awaitHelloVerifyRequest_calm : Calm env ok k (awaitHelloVerifyRequest env) := by
  unfold awaitHelloVerifyRequest; simp only [bind_eq, pure_eq]; calm
theorem serverExtensions_calm (l b) : Calm env ok k (serverExtensions env l b) := by
  induction l generalizing b with
  | nil => exact .pure _
  | cons x rest ih =>
    obtain ⟨t, d⟩ := x
    unfold serverExtensions
    simp only [bind_eq]
    calm
    all_goals exact ih _
theorem awaitServerHello_early : Early env ok (awaitServerHello env) := by
  unfold awaitServerHello; simp only [bind_eq, pure_eq]
  refine Early.bind (Calm.nextHandshake _).early fun m => ?_
  split
  · exact (Calm.pure _).early
  · refine Early.bind (Calm.check _ _).early fun _ => Early.bind (Calm.check _ _).early fun _ =>
      Early.bind (Calm.check _ _).early fun _ => Early.bind (Calm.check _ _).early fun _ =>
      Early.bind (Calm.check _ _).early fun _ => Early.bind (Early.setSuite _) fun _ => Calm.early ?_
    have := @serverExtensions_calm env ok
    calm
    exact this _ _
  · exact Calm.panic.early
theorem awaitCertificate_calm : Calm env ok k (awaitCertificate env) := by
  unfold awaitCertificate; simp only [bind_eq, pure_eq]; calm
theorem processEcdh_calm (g p) : Calm env ok k (processEcdh env g p) := by
  unfold processEcdh; simp only [bind_eq]; calm
theorem awaitServerKeyExchangeEcdhe_calm (s) : Calm env ok k (awaitServerKeyExchangeEcdhe env s) := by
  unfold awaitServerKeyExchangeEcdhe; simp only [bind_eq, pure_eq]; calm
  exact processEcdh_calm _ _
theorem awaitServerKeyExchangePsk_calm : Calm env ok k (awaitServerKeyExchangePsk env) := by
  unfold awaitServerKeyExchangePsk; simp only [bind_eq, pure_eq]; calm
theorem awaitServerKeyExchange_calm : Calm env ok k (awaitServerKeyExchange env) := by
  unfold awaitServerKeyExchange; simp only [bind_eq]; calm
  · exact awaitServerKeyExchangePsk_calm
  · exact awaitServerKeyExchangeEcdhe_calm _
theorem awaitCertificateRequest_calm : Calm env ok k (awaitCertificateRequest env) := by
  unfold awaitCertificateRequest; simp only [bind_eq, pure_eq]; calm
theorem awaitServerHelloDone_calm : Calm env ok k (awaitServerHelloDone env) := by
  unfold awaitServerHelloDone; simp only [bind_eq, pure_eq]; calm
theorem sendCertificate_calm : Calm env ok k (sendCertificate env) := by
  unfold sendCertificate; simp only [bind_eq, pure_eq]; calm
theorem clientKeyExchangeBody_calm : Calm env ok k (clientKeyExchangeBody env) := by
  unfold clientKeyExchangeBody; simp only [bind_eq, pure_eq]; calm
theorem sendClientKeyExchange_calm : Calm env ok k (sendClientKeyExchange env) := by
  have := @clientKeyExchangeBody_calm env ok k
  unfold sendClientKeyExchange; simp only [bind_eq, pure_eq]; calm
theorem certificateVerifyBody_calm : Calm env ok k (certificateVerifyBody env) := by
  unfold certificateVerifyBody; simp only [bind_eq, pure_eq]; calm
theorem sendCertificateVerify_calm : Calm env ok k (sendCertificateVerify env) := by
  have := @certificateVerifyBody_calm env ok k
  unfold sendCertificateVerify; simp only [bind_eq, pure_eq]; calm
theorem sendFinished_calm : Calm env ok True (sendFinished env) := by
  unfold sendFinished; simp only [bind_eq, pure_eq]; calm
theorem awaitNewSessionTicket_calm : Calm env ok k (awaitNewSessionTicket env) := by
  unfold awaitNewSessionTicket; simp only [bind_eq, pure_eq]; calm
theorem awaitFinished_calm : Calm env ok k (awaitFinished env) := by
  unfold awaitFinished; simp only [bind_eq, pure_eq]; calm
  exact announceConnected_calm _ _ _

end C12

namespace S12
variable {env : PEnv} {ok : Bytes → Prop} {k : Prop}

theorem clientExtensions_calm (l x) : Calm env ok k (clientExtensions env l x) := by
  induction l generalizing x with
  | nil => exact .pure _
  | cons e rest ih =>
    obtain ⟨t, d⟩ := e
    unfold clientExtensions
    simp only [bind_eq]
    calm
    all_goals exact ih _
theorem sendHelloVerify_calm (r) : Calm env ok k (sendHelloVerify env r) := by
  unfold sendHelloVerify; simp only [bind_eq, pure_eq]; calm
theorem acceptClientHello_early (c) : Early env ok (acceptClientHello env c) := by
  unfold acceptClientHello; simp only [bind_eq, pure_eq]
  refine Early.bind (Calm.orFatal _ _).early fun _ => Early.bind (Early.setSuite _) fun _ => Calm.early ?_
  have := @clientExtensions_calm env ok
  calm
  exact this _ _
theorem awaitClientHello_early : Early env ok (awaitClientHello env) := by
  unfold awaitClientHello; simp only [bind_eq, pure_eq]
  refine Early.bind (Calm.nextHandshake _).early fun m => ?_
  split
  · exact (Calm.pure _).early
  · refine Early.bind (Calm.check _ _).early fun _ => Early.bind (Calm.check _ _).early fun _ => ?_
    split
    · exact acceptClientHello_early _
    · exact (sendHelloVerify_calm _).early
  · exact Calm.panic.early
theorem sendServerHello_calm : Calm env ok k (sendServerHello env) := by
  unfold sendServerHello; simp only [bind_eq, pure_eq]; calm
theorem sendCertificate_calm : Calm env ok k (sendCertificate env) := by
  unfold sendCertificate; simp only [bind_eq, pure_eq]; calm
theorem serverKeyExchangeBody_calm (a b c d) : Calm env ok k (serverKeyExchangeBody env a b c d) := by
  unfold serverKeyExchangeBody; simp only [bind_eq, pure_eq]; calm
theorem sendServerKeyExchangeEcdhe_calm : Calm env ok k (sendServerKeyExchangeEcdhe env) := by
  unfold sendServerKeyExchangeEcdhe; simp only [bind_eq, pure_eq]; calm
  exact serverKeyExchangeBody_calm _ _ _ _
theorem sendServerKeyExchangePsk_calm : Calm env ok k (sendServerKeyExchangePsk env) := by
  unfold sendServerKeyExchangePsk; simp only [bind_eq, pure_eq]; calm
theorem sendServerKeyExchange_calm : Calm env ok k (sendServerKeyExchange env) := by
  unfold sendServerKeyExchange; simp only [bind_eq]; calm
  · exact sendServerKeyExchangePsk_calm
  · exact sendServerKeyExchangeEcdhe_calm
theorem sendCertificateRequest_calm : Calm env ok k (sendCertificateRequest env) := by
  unfold sendCertificateRequest; simp only [bind_eq, pure_eq]; calm
theorem sendServerHelloDone_calm : Calm env ok k (sendServerHelloDone env) := by
  unfold sendServerHelloDone; simp only [bind_eq, pure_eq]; calm
theorem awaitCertificate_calm : Calm env ok k (awaitCertificate env) := by
  unfold awaitCertificate; simp only [bind_eq, pure_eq]; calm
theorem clientKxPsk_calm (i) : Calm env ok k (clientKxPsk env i) := by
  unfold clientKxPsk; simp only [bind_eq]; calm
theorem clientKxEcdh_calm (i) : Calm env ok k (clientKxEcdh env i) := by
  unfold clientKxEcdh; simp only [bind_eq]; calm
theorem awaitCertificateVerify_calm : Calm env ok k (awaitCertificateVerify env) := by
  unfold awaitCertificateVerify; simp only [bind_eq, pure_eq]; calm
theorem awaitFinished_calm : Calm env ok k (awaitFinished env) := by
  unfold awaitFinished; simp only [bind_eq, pure_eq]; calm
theorem sendChangeCipherSpec_calm (h1 : ok [1]) : Calm env ok k (sendChangeCipherSpec env) := by
  unfold sendChangeCipherSpec; simp only [bind_eq, pure_eq]; calm
  exact .record h1 _ _ _ _ (.inl rfl)
theorem sendFinished_calm : Calm env ok True (sendFinished env) := by
  unfold sendFinished; simp only [bind_eq]; calm
  exact announceConnected_calm _ _ _

end S12
end Verif.E12

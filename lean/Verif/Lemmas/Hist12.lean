import Verif.Lemmas.Walk12
/-!
# Histories of a DTLS 1.2 session

`HStable` is like `Stable` for a property of the outputs so far and the state. `Keeps` says that a
state function leaves a projection of the session alone.
-/
namespace Verif.E12
open Verif Wire Window Timer Aead M

/-! ## Histories -/

/-- The outputs among what calls returned. -/
def outputs : List Ret → List Output
  | [] => []
  | .out o :: l => o :: outputs l
  | .res _ :: l => outputs l

theorem outputs_append (a b : List Ret) : outputs (a ++ b) = outputs a ++ outputs b := by
  induction a with
  | nil => rfl
  | cons r a ih => cases r <;> simp [outputs, ih]

/-- Knowing `I` throughout, `J` of outputs and state survives everything a session does. -/
structure HStable (R : Role) (env : PEnv) (ok : Bytes → Prop) (I : Ses R.St → Prop)
    (J : List Output → Ses R.St → Prop) : Prop where
  packet : ∀ os s p, I s → J os s → J os { s with eng := (parsePacket env.toEnv p s.eng).2 }
  note : ∀ os s n, I s → J os s → J os (noteTime R env n s)
  timeout : ∀ os s n, I s → J os s → J os { s with eng := (handleTimeout env.toEnv n s.eng).2 }
  step : ∀ os s, I s → J os s → wp (R.step env s.st) s (fun new s' => J os { s' with st := new })
    (fun _ s' => J os s')
  send : ∀ os s d, ok d → I s → J os s → J os (sendM R env d s).2
  close : ∀ os s, I s → J os s → J os (closeM R env s).2
  poll : ∀ os s n, I s → J os s → J (os ++ [(pollM R n s).1]) (pollM R n s).2

namespace HStable
variable {R : Role} {env : PEnv} {ok : Bytes → Prop} {I : Ses R.St → Prop}
  {J : List Output → Ses R.St → Prop}

theorem progress (hI : Stable R env ok I) (h : HStable R env ok I J) (fuel : Nat) (os : List Output)
    (s : Ses R.St) (hs : I s) (hj : J os s) : J os (E12.progress R env fuel s).2 := by
  induction fuel generalizing s with
  | zero => exact hj
  | succ n ih =>
    apply of_wp (m := E12.progress R env (n + 1))
    unfold E12.progress
    simp only [bind_eq, pure_eq, wp_bind, wp_get]
    refine wp_mono (wp_and (hI.step s hs) (h.step os s hs hj)) ?_ (fun _ _ h => h.2)
    rintro new s' ⟨⟨hst, hI'⟩, hJ'⟩
    split
    · rename_i he
      subst he
      rw [wp_pure]
      have : s' = { s' with st := s.st } := by rw [← hst]
      rw [this]
      exact hJ'
    · simp only [wp_bind, wp_modify]
      rw [wp_state]
      exact ih _ hI' hJ'

theorem call (hI : Stable R env ok I) (h : HStable R env ok I J) (os : List Output) (s : Ses R.St)
    (c : Call) (hc : ∀ d, c = .send d → ok d) (hs : I s) (hj : J os s) :
    J (os ++ outputs [(E12.call R env s c).1]) (E12.call R env s c).2 := by
  cases c with
  | packet p =>
    show J (os ++ []) (handlePacketM R env p s).2
    rw [List.append_nil]
    apply of_wp (m := handlePacketM R env p)
    unfold handlePacketM
    simp only [bind_eq, wp_bind, wp_onEng]
    refine wp_mono (wp_state (R := fun e => I { s with eng := e } ∧ J os { s with eng := e }) |>.mpr
      ⟨hI.packet s p hs, h.packet os s p hs hj⟩) ?_ ?_
    · intro _ e he
      rw [wp_state]
      exact progress hI h _ _ _ he.1 he.2
    · intro _ e he
      exact he.2
  | timeout n =>
    show J (os ++ []) (handleTimeoutM R env n s).2
    rw [List.append_nil]
    apply of_wp (m := handleTimeoutM R env n)
    unfold handleTimeoutM
    simp only [bind_eq, wp_bind, wp_onEng, wp_modify]
    refine wp_mono (wp_state (R := fun e => I { noteTime R env n s with eng := e } ∧
      J os { noteTime R env n s with eng := e }) |>.mpr
      ⟨hI.timeout _ n (hI.note s n hs), h.timeout os _ n (hI.note s n hs) (h.note os s n hs hj)⟩) ?_ ?_
    · intro _ e he
      rw [wp_state]
      exact progress hI h _ _ _ he.1 he.2
    · intro _ e he
      exact he.2
  | send d =>
    show J (os ++ []) _
    rw [List.append_nil]
    exact h.send os s d (hc d rfl) hs hj
  | close =>
    show J (os ++ []) _
    rw [List.append_nil]
    exact h.close os s hs hj
  | poll n => exact h.poll os s n hs hj

theorem run (hI : Stable R env ok I) (h : HStable R env ok I J) (os : List Output) (s : Ses R.St)
    (cs : List Call) (hc : ∀ d, .send d ∈ cs → ok d) (hs : I s) (hj : J os s) :
    J (os ++ outputs (E12.run R env s cs).1) (E12.run R env s cs).2 := by
  induction cs generalizing os s with
  | nil => simpa [E12.run, outputs] using hj
  | cons c cs ih =>
    have h1 := hI.call s c (fun d hd => hc d (by simp [hd])) hs
    have h2 := call hI h os s c (fun d hd => hc d (by simp [hd])) hs hj
    unfold E12.run
    simp only
    split
    · exact h2
    · have := ih _ _ (fun d hd => hc d (by simp [hd])) h1 h2
      rw [List.append_assoc, ← outputs_append] at this
      exact this

end HStable

/-! ## Functions that leave a projection alone -/

/-- Events of `poll_output`. -/
def Ev.isOut : Ev → Bool
  | .delivered .. => true
  | .sent .. => true
  | _ => false

/-- Events that state functions add. -/
def Ev.isStep : Ev → Bool
  | .sealed .. => true
  | .queued .. => true
  | .consumed .. => true
  | _ => false

/-- What most state functions do to the engine: they send and consume. -/
def Quiet (s s' : Eng) : Prop :=
  ∃ tx a b sv t tr ns rx ps tm cf es, (∀ e ∈ es, Ev.isStep e = true) ∧
    s' = { s with tx := tx, seq0 := a, seqN := b, saved := sv, tick := t, transcript := tr, nextSeq := ns,
                  rx := rx, peerSeq := ps, timers := tm, confirmed := cf, log := es ++ s.log }

theorem Quiet.of (s : Eng) (tx a b sv t tr ns rx ps tm cf) :
    Quiet s { s with tx := tx, seq0 := a, seqN := b, saved := sv, tick := t, transcript := tr,
                     nextSeq := ns, rx := rx, peerSeq := ps, timers := tm, confirmed := cf } :=
  ⟨tx, a, b, sv, t, tr, ns, rx, ps, tm, cf, [], by simp, rfl⟩

theorem Quiet.refl (s : Eng) : Quiet s s :=
  .of s s.tx s.seq0 s.seqN s.saved s.tick s.transcript s.nextSeq s.rx s.peerSeq s.timers s.confirmed

theorem Quiet.trans {a b c : Eng} (h : Quiet a b) (g : Quiet b c) : Quiet a c := by
  obtain ⟨_, _, _, _, _, _, _, _, _, _, _, es, he, rfl⟩ := h
  obtain ⟨x1, x2, x3, x4, x5, x6, x7, x8, x9, x10, x11, es', he', rfl⟩ := g
  refine ⟨x1, x2, x3, x4, x5, x6, x7, x8, x9, x10, x11, es' ++ es, ?_, by simp⟩
  intro e hm
  rcases List.mem_append.mp hm with hm | hm
  · exact he' e hm
  · exact he e hm

theorem SendFrame.quiet {s s' : Eng} (h : SendFrame s s') : Quiet s s' := by
  obtain ⟨tx, a, b, sv, t, es, he, rfl⟩ := h
  refine ⟨tx, a, b, sv, t, s.transcript, s.nextSeq, s.rx, s.peerSeq, s.timers, s.confirmed, es, ?_, rfl⟩
  intro e hm
  have := he e hm
  cases e <;> simp_all [Ev.isSend, Ev.isStep]

theorem createHandshake_quiet (env : Env) (t : UInt8) (b : Bytes) (s : Eng) :
    Quiet s (createHandshake env t b s).2 := by
  have h : ∀ tr ns, Quiet s { s with transcript := tr, nextSeq := ns } := fun tr ns =>
    .of s s.tx s.seq0 s.seqN s.saved s.tick tr ns s.rx s.peerSeq s.timers s.confirmed
  unfold createHandshake
  dsimp only
  split
  · exact h _ _
  split
  · exact h _ _
  · exact (h _ _).trans (fragmentLoop_frame ..).quiet

theorem nextHandshake_quiet (env : Env) (t : UInt8) (s : Eng) :
    Quiet s (nextHandshake env t s).2 := by
  have h : ∀ rx tr, Quiet s { s with rx := rx, transcript := tr } := fun rx tr =>
    .of s s.tx s.seq0 s.seqN s.saved s.tick tr s.nextSeq rx s.peerSeq s.timers s.confirmed
  unfold nextHandshake
  split
  · exact .refl s
  split
  · exact .refl s
  unfold defragment
  dsimp only
  split; · exact .refl s
  split; · exact .refl s
  split; · exact h _ _
  split; · exact h _ _
  split; · exact h _ _
  · exact ⟨s.tx, s.seq0, s.seqN, s.saved, s.tick, _, s.nextSeq, _, _, s.timers, s.confirmed, [_],
      by simp [Ev.isStep], rfl⟩

theorem nextRecord_quiet (c : UInt8) (s : Eng) : Quiet s (nextRecord c s).2 := by
  unfold nextRecord
  repeat' split
  all_goals first
    | exact .refl s
    | exact .of s s.tx s.seq0 s.seqN s.saved s.tick s.transcript s.nextSeq _ s.peerSeq s.timers s.confirmed

theorem handleTimeout_quiet (env : Env) (n : Nat) (s : Eng) : Quiet s (handleTimeout env n s).2 := by
  have h : ∀ tm, Quiet s { s with timers := tm, tick := s.tick + 1 } := fun tm =>
    .of s s.tx s.seq0 s.seqN s.saved _ s.transcript s.nextSeq s.rx s.peerSeq tm s.confirmed
  unfold handleTimeout
  dsimp only
  split
  · exact h _
  · exact h _
  · exact (h _).trans (flightResend_frame ..).quiet
  · exact h _

theorem generateVerifyData_snd (env : Env) (b : Bool) (s : Eng) :
    (generateVerifyData env b s).2 = s := by
  unfold generateVerifyData
  repeat' split
  all_goals rfl

section keeps
variable {St : Type} {β : Type} (π : Ses St → β)

/-- `m` leaves `π` alone. -/
def Keeps {α : Type} (m : P St α) : Prop := ∀ s, π (m s).2 = π s

/-- `π` does not see what most state functions do to the engine. -/
def Proj : Prop := ∀ (s : Ses St) (e : Eng), Quiet s.eng e → π { s with eng := e } = π s

variable {π} {α γ : Type}

theorem Keeps.pure (a : α) : Keeps π (M.pure a : P St α) := fun _ => rfl
theorem Keeps.get : Keeps π (M.get : P St (Ses St)) := fun _ => rfl
theorem Keeps.fail (f : Fault) : Keeps π (M.fail f : P St α) := fun _ => rfl
theorem Keeps.fatal (e : Error) : Keeps π (M.fatal e : P St α) := fun _ => rfl
theorem Keeps.transient : Keeps π (M.transient : P St α) := fun _ => rfl
theorem Keeps.panic : Keeps π (M.panic : P St α) := fun _ => rfl

theorem Keeps.bind {m : P St α} {f : α → P St γ} (h : Keeps π m) (g : ∀ a, Keeps π (f a)) :
    Keeps π (M.bind m f) := by
  intro s
  rw [bind_snd]
  split
  · exact (g _ _).trans (h s)
  · exact h s

theorem Keeps.modify {f : Ses St → Ses St} (h : ∀ s, π (f s) = π s) : Keeps π (M.modify f) := h

theorem Keeps.check (c : Bool) (e : Error) : Keeps π (check c e : P St Unit) := by
  unfold E12.check; split
  · exact .pure _
  · exact .fatal _
theorem Keeps.orFatal (o : Option α) (e : Error) : Keeps π (orFatal o e : P St α) := by
  cases o
  · exact .fatal _
  · exact .pure _
theorem Keeps.orPanic (o : Option α) : Keeps π (orPanic o : P St α) := by
  cases o
  · exact .panic
  · exact .pure _
theorem Keeps.orTransient (o : Option α) : Keeps π (orTransient o : P St α) := by
  cases o
  · exact .transient
  · exact .pure _

theorem Keeps.onEng (hp : Proj π) {m : E α} (h : ∀ e, Quiet e (m e).2) : Keeps π (onEng m : P St α) :=
  fun s => hp s _ (h s.eng)

theorem Keeps.onEng' (hp : Proj π) {f : Eng → Eng} (h : ∀ e, Quiet e (f e)) :
    Keeps π (onEng' f : P St Unit) := fun s => hp s _ (h s.eng)

theorem Keeps.record (hp : Proj π) (env c e sv fo f) :
    Keeps π (E12.onEng (createRecord env c e sv fo f) : P St Unit) :=
  .onEng hp fun _ => (createRecord_frame ..).quiet
theorem Keeps.handshake (hp : Proj π) (env t b) :
    Keeps π (E12.onEng (createHandshake env t b) : P St Unit) :=
  .onEng hp fun _ => createHandshake_quiet ..
theorem Keeps.nextHandshake (hp : Proj π) (env t) :
    Keeps π (E12.onEng (nextHandshake env t) : P St (Option Body)) :=
  .onEng hp fun _ => nextHandshake_quiet ..
theorem Keeps.nextRecord (hp : Proj π) (c) : Keeps π (E12.onEng (nextRecord c) : P St Bool) :=
  .onEng hp fun _ => nextRecord_quiet ..
theorem Keeps.timeout (hp : Proj π) (env n) : Keeps π (E12.onEng (handleTimeout env n) : P St Unit) :=
  .onEng hp fun _ => handleTimeout_quiet ..
theorem Keeps.verifyData (env b) :
    Keeps π (E12.onEng (generateVerifyData env b) : P St Bytes) := by
  intro s
  show π { s with eng := (generateVerifyData env b s.eng).2 } = π s
  rw [generateVerifyData_snd]
theorem Keeps.flightBegin (hp : Proj π) (env) : Keeps π (E12.onEng' (flightBegin env) : P St Unit) :=
  .onEng' hp fun s =>
    .of s s.tx s.seq0 s.seqN _ _ s.transcript s.nextSeq s.rx s.peerSeq _ s.confirmed
theorem Keeps.flightStop (hp : Proj π) : Keeps π (E12.onEng' flightStop : P St Unit) :=
  .onEng' hp fun s =>
    .of s s.tx s.seq0 s.seqN s.saved s.tick s.transcript s.nextSeq s.rx s.peerSeq _ _
theorem Keeps.abort (hp : Proj π) : Keeps π (E12.onEng' abort : P St Unit) :=
  .onEng' hp fun s =>
    .of s _ s.seq0 s.seqN _ s.tick s.transcript s.nextSeq s.rx s.peerSeq _ s.confirmed
theorem Keeps.discard (hp : Proj π) : Keeps π (E12.onEng' discardPendingWrites : P St Unit) :=
  .onEng' hp fun s =>
    .of s _ s.seq0 s.seqN s.saved s.tick s.transcript s.nextSeq s.rx s.peerSeq s.timers s.confirmed
theorem Keeps.resetServer (hp : Proj π) : Keeps π (E12.onEng' resetServerForHvr : P St Unit) :=
  .onEng' hp fun s =>
    .of s s.tx s.seq0 s.seqN s.saved s.tick _ s.nextSeq _ s.peerSeq s.timers s.confirmed
theorem Keeps.resetClient (hp : Proj π) : Keeps π (E12.onEng' resetClientForHvr : P St Unit) :=
  .onEng' hp fun s =>
    .of s s.tx s.seq0 s.seqN s.saved s.tick _ s.nextSeq s.rx s.peerSeq s.timers s.confirmed
theorem Keeps.dropCcs (hp : Proj π) : Keeps π (E12.onEng' dropPendingCcs : P St Unit) :=
  .onEng' hp fun s =>
    .of s s.tx s.seq0 s.seqN s.saved s.tick s.transcript s.nextSeq _ s.peerSeq s.timers s.confirmed
theorem Keeps.drawTick (hp : Proj π) : Keeps π (drawTick : P St Nat) := fun s =>
  hp s _ (.of s.eng s.eng.tx s.eng.seq0 s.eng.seqN s.eng.saved _ s.eng.transcript s.eng.nextSeq s.eng.rx
    s.eng.peerSeq s.eng.timers s.eng.confirmed)

end keeps

/-- Prove `Keeps π` of a function by its syntax; `hp : Proj π` in context. -/
macro "keeps" : tactic => `(tactic|
  repeat' first
    | with_reducible exact Keeps.pure _
    | with_reducible exact Keeps.get
    | with_reducible exact Keeps.fatal _
    | with_reducible exact Keeps.transient
    | with_reducible exact Keeps.panic
    | with_reducible exact Keeps.fail _
    | with_reducible exact Keeps.check _ _
    | with_reducible exact Keeps.orFatal _ _
    | with_reducible exact Keeps.orPanic _
    | with_reducible exact Keeps.orTransient _
    | with_reducible exact Keeps.record (by assumption) _ _ _ _ _ _
    | with_reducible exact Keeps.handshake (by assumption) _ _ _
    | with_reducible exact Keeps.nextHandshake (by assumption) _ _
    | with_reducible exact Keeps.nextRecord (by assumption) _
    | with_reducible exact Keeps.verifyData _ _
    | with_reducible exact Keeps.flightBegin (by assumption) _
    | with_reducible exact Keeps.flightStop (by assumption)
    | with_reducible exact Keeps.discard (by assumption)
    | with_reducible exact Keeps.resetServer (by assumption)
    | with_reducible exact Keeps.resetClient (by assumption)
    | with_reducible exact Keeps.dropCcs (by assumption)
    | with_reducible exact Keeps.drawTick (by assumption)
    | (with_reducible refine Keeps.modify ?_) <;> exact fun _ => rfl
    | assumption
    | with_reducible refine Keeps.bind ?_ (fun _ => ?_)
    | split)

/-! ## The part of a session that outputs depend on -/

/-- What `poll_output` returned so far, and what decides what it may return. -/
structure Shown where
  release : Bool
  peerEnc : Bool
  closeRecv : Bool
  closeReported : Bool
  outs : List Ev
  events : List Event
deriving DecidableEq

def shown {St : Type} (s : Ses St) : Shown :=
  { release := s.eng.release, peerEnc := s.eng.peerEnc, closeRecv := s.eng.closeRecv,
    closeReported := s.eng.closeReported, outs := s.eng.log.filter Ev.isOut, events := s.events }

theorem outs_step {es l : List Ev} (h : ∀ e ∈ es, Ev.isStep e = true) :
    (es ++ l).filter Ev.isOut = l.filter Ev.isOut := by
  rw [List.filter_append]
  have : es.filter Ev.isOut = [] := by
    rw [List.filter_eq_nil_iff]
    intro e he
    have := h e he
    cases e <;> simp_all [Ev.isStep, Ev.isOut]
  rw [this]; rfl

theorem shown_proj {St : Type} : Proj (shown (St := St)) := by
  rintro s e ⟨_, _, _, _, _, _, _, _, _, _, _, es, he, rfl⟩
  simp [shown, outs_step he]

/-- The same with the state. -/
def seen {St : Type} (s : Ses St) : Shown × St := (shown s, s.st)

theorem seen_proj {St : Type} : Proj (seen (St := St)) := fun s e h => by
  unfold seen
  rw [shown_proj s e h]

section shared
variable {St : Type} {env : PEnv}

theorem drainLoop_shown (l : List Bytes) : Keeps seen (drainLoop env l : P St Unit) := by
  have hp := seen_proj (St := St)
  induction l with
  | nil => exact .pure _
  | cons d rest ih => exact .bind (.record hp _ _ _ _ _ _) fun _ => ih

theorem drainQueued_shown : Keeps seen (drainQueued env : P St Unit) :=
  fun s => drainLoop_shown s.queued { s with queued := [] }

theorem awaitApplicationData_shown (a b : St) : Keeps seen (awaitApplicationData env a b) := by
  have hp := seen_proj (St := St)
  have hd := drainQueued_shown (St := St) (env := env)
  have hc : Keeps seen (sendCloseNotify env : P St Unit) := .record hp _ _ _ _ _ _
  unfold awaitApplicationData
  simp only [bind_eq, pure_eq]
  keeps

theorem setSuite_shown (cs) : Keeps seen (onEng (setCipherSuite env.toEnv cs) : P St Unit) := by
  intro s
  show seen { s with eng := (setCipherSuite env.toEnv cs s.eng).2 } = seen s
  unfold setCipherSuite
  split <;> rfl

theorem deriveMaster_shown (a b c d) : Keeps seen (deriveMaster env a b c d : P St Unit) := by
  unfold deriveMaster
  simp only [bind_eq]
  keeps

end shared

namespace C12
variable {env : PEnv}

theorem sendClientHello_shown : Keeps seen (sendClientHello env) := by
  have hp := seen_proj (St := CSt)
  unfold sendClientHello; simp only [bind_eq, pure_eq]; keeps
theorem awaitHelloVerifyRequest_shown : Keeps seen (awaitHelloVerifyRequest env) := by
  have hp := seen_proj (St := CSt)
  unfold awaitHelloVerifyRequest; simp only [bind_eq, pure_eq]; keeps
theorem serverExtensions_shown (l b) : Keeps seen (serverExtensions env l b) := by
  have hp := seen_proj (St := CSt)
  induction l generalizing b with
  | nil => exact .pure _
  | cons x rest ih =>
    obtain ⟨t, d⟩ := x
    unfold serverExtensions
    simp only [bind_eq]
    keeps
    all_goals exact ih _
theorem awaitServerHello_shown : Keeps seen (awaitServerHello env) := by
  have hp := seen_proj (St := CSt)
  unfold awaitServerHello; simp only [bind_eq, pure_eq]; keeps
  · exact setSuite_shown _
  · exact serverExtensions_shown _ _
theorem awaitCertificate_shown : Keeps seen (awaitCertificate env) := by
  have hp := seen_proj (St := CSt)
  unfold awaitCertificate; simp only [bind_eq, pure_eq]; keeps
theorem processEcdh_shown (g p) : Keeps seen (processEcdh env g p) := by
  have hp := seen_proj (St := CSt)
  unfold processEcdh; simp only [bind_eq]; keeps
theorem awaitServerKeyExchangeEcdhe_shown (s) : Keeps seen (awaitServerKeyExchangeEcdhe env s) := by
  have hp := seen_proj (St := CSt)
  unfold awaitServerKeyExchangeEcdhe; simp only [bind_eq, pure_eq]; keeps
  exact processEcdh_shown _ _
theorem awaitServerKeyExchangePsk_shown : Keeps seen (awaitServerKeyExchangePsk env) := by
  have hp := seen_proj (St := CSt)
  unfold awaitServerKeyExchangePsk; simp only [bind_eq, pure_eq]; keeps
theorem awaitServerKeyExchange_shown : Keeps seen (awaitServerKeyExchange env) := by
  unfold awaitServerKeyExchange; simp only [bind_eq]; keeps
  · exact awaitServerKeyExchangePsk_shown
  · exact awaitServerKeyExchangeEcdhe_shown _
theorem awaitCertificateRequest_shown : Keeps seen (awaitCertificateRequest env) := by
  have hp := seen_proj (St := CSt)
  unfold awaitCertificateRequest; simp only [bind_eq, pure_eq]; keeps
theorem sendCertificate_shown : Keeps seen (sendCertificate env) := by
  have hp := seen_proj (St := CSt)
  unfold sendCertificate; simp only [bind_eq, pure_eq]; keeps
theorem clientKeyExchangeBody_shown : Keeps seen (clientKeyExchangeBody env) := by
  unfold clientKeyExchangeBody; simp only [bind_eq, pure_eq]; keeps
theorem sendClientKeyExchange_shown : Keeps seen (sendClientKeyExchange env) := by
  have hp := seen_proj (St := CSt)
  have := @clientKeyExchangeBody_shown env
  unfold sendClientKeyExchange; simp only [bind_eq, pure_eq]; keeps
theorem certificateVerifyBody_shown : Keeps seen (certificateVerifyBody env) := by
  have hp := seen_proj (St := CSt)
  unfold certificateVerifyBody; simp only [bind_eq, pure_eq]; keeps
theorem sendCertificateVerify_shown : Keeps seen (sendCertificateVerify env) := by
  have hp := seen_proj (St := CSt)
  have := @certificateVerifyBody_shown env
  unfold sendCertificateVerify; simp only [bind_eq, pure_eq]; keeps
theorem deriveKeys_shown : Keeps seen (deriveKeys env) := by
  unfold deriveKeys; simp only [bind_eq]; keeps
  exact deriveMaster_shown _ _ _ _
theorem sendChangeCipherSpec_shown : Keeps seen (sendChangeCipherSpec env) := by
  have hp := seen_proj (St := CSt)
  have := @deriveKeys_shown env
  unfold sendChangeCipherSpec; simp only [bind_eq, pure_eq]; keeps
theorem sendFinished_shown : Keeps seen (sendFinished env) := by
  have hp := seen_proj (St := CSt)
  unfold sendFinished; simp only [bind_eq, pure_eq]; keeps
theorem awaitNewSessionTicket_shown : Keeps seen (awaitNewSessionTicket env) := by
  have hp := seen_proj (St := CSt)
  unfold awaitNewSessionTicket; simp only [bind_eq, pure_eq]; keeps

end C12

namespace S12
variable {env : PEnv}

theorem clientExtensions_shown (l x) : Keeps seen (clientExtensions env l x) := by
  have hp := seen_proj (St := SSt)
  induction l generalizing x with
  | nil => exact .pure _
  | cons e rest ih =>
    obtain ⟨t, d⟩ := e
    unfold clientExtensions
    simp only [bind_eq]
    keeps
    all_goals exact ih _
theorem sendHelloVerify_shown (r) : Keeps seen (sendHelloVerify env r) := by
  have hp := seen_proj (St := SSt)
  unfold sendHelloVerify; simp only [bind_eq, pure_eq]; keeps
theorem acceptClientHello_shown (c) : Keeps seen (acceptClientHello env c) := by
  unfold acceptClientHello; simp only [bind_eq, pure_eq]; keeps
  · exact setSuite_shown _
  · exact clientExtensions_shown _ _
theorem awaitClientHello_shown : Keeps seen (awaitClientHello env) := by
  have hp := seen_proj (St := SSt)
  unfold awaitClientHello; simp only [bind_eq, pure_eq]; keeps
  · exact acceptClientHello_shown _
  · exact sendHelloVerify_shown _
theorem sendServerHello_shown : Keeps seen (sendServerHello env) := by
  have hp := seen_proj (St := SSt)
  unfold sendServerHello; simp only [bind_eq, pure_eq]; keeps
theorem sendCertificate_shown : Keeps seen (sendCertificate env) := by
  have hp := seen_proj (St := SSt)
  unfold sendCertificate; simp only [bind_eq, pure_eq]; keeps
theorem serverKeyExchangeBody_shown (a b c d) : Keeps seen (serverKeyExchangeBody env a b c d) := by
  have hp := seen_proj (St := SSt)
  unfold serverKeyExchangeBody; simp only [bind_eq, pure_eq]; keeps
theorem sendServerKeyExchange_shown : Keeps seen (sendServerKeyExchange env) := by
  have hp := seen_proj (St := SSt)
  unfold sendServerKeyExchange sendServerKeyExchangePsk sendServerKeyExchangeEcdhe
  simp only [bind_eq, pure_eq]; keeps
  exact serverKeyExchangeBody_shown _ _ _ _
theorem sendCertificateRequest_shown : Keeps seen (sendCertificateRequest env) := by
  have hp := seen_proj (St := SSt)
  unfold sendCertificateRequest; simp only [bind_eq, pure_eq]; keeps
theorem sendServerHelloDone_shown : Keeps seen (sendServerHelloDone env) := by
  have hp := seen_proj (St := SSt)
  unfold sendServerHelloDone; simp only [bind_eq, pure_eq]; keeps
theorem clientKxPsk_shown (i) : Keeps seen (clientKxPsk env i) := by
  have hp := seen_proj (St := SSt)
  unfold clientKxPsk; simp only [bind_eq]; keeps
theorem clientKxEcdh_shown (i) : Keeps seen (clientKxEcdh env i) := by
  unfold clientKxEcdh; simp only [bind_eq]; keeps
theorem finishClientKx_shown (c) : Keeps seen (finishClientKx env c) := by
  unfold finishClientKx; simp only [bind_eq, pure_eq]; keeps
  exact deriveMaster_shown _ _ _ _
theorem awaitClientKeyExchange_shown : Keeps seen (awaitClientKeyExchange env) := by
  have hp := seen_proj (St := SSt)
  have := @finishClientKx_shown env
  have := @clientKxPsk_shown env
  have := @clientKxEcdh_shown env
  unfold awaitClientKeyExchange; simp only [bind_eq, pure_eq]; keeps
  all_goals first
    | exact finishClientKx_shown _
    | exact clientKxPsk_shown _
    | exact clientKxEcdh_shown _
theorem awaitCertificateVerify_shown : Keeps seen (awaitCertificateVerify env) := by
  have hp := seen_proj (St := SSt)
  unfold awaitCertificateVerify; simp only [bind_eq, pure_eq]; keeps
theorem awaitFinished_shown : Keeps seen (awaitFinished env) := by
  have hp := seen_proj (St := SSt)
  unfold awaitFinished; simp only [bind_eq, pure_eq]; keeps
theorem sendChangeCipherSpec_shown : Keeps seen (sendChangeCipherSpec env) := by
  have hp := seen_proj (St := SSt)
  unfold sendChangeCipherSpec; simp only [bind_eq, pure_eq]; keeps

end S12
end Verif.E12

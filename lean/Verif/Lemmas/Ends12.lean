import Verif.Lemmas.Clock12
import Verif.Lemmas.Rule12
import Verif.Props.Frag13
/-!
# No loop of a DTLS 1.2 session runs forever

Every operation of the engine and every handshake state comes to an end, in whatever state the session is, as long
as a record of its suite leaves room for a byte in a datagram.
-/
namespace Verif

/-- `m` never fails to come to an end. -/
def Returns {σ α : Type} (m : M σ α) : Prop := ∀ s, (m s).1 ≠ .fail .diverge

namespace Returns
variable {σ τ α β : Type}

theorem pure (a : α) : Returns (M.pure a : M σ α) := nofun
theorem get : Returns (M.get : M σ σ) := nofun
theorem set (s : σ) : Returns (M.set s) := nofun
theorem modify (f : σ → σ) : Returns (M.modify f) := nofun
theorem fatal (e : Error) : Returns (M.fatal e : M σ α) := nofun
theorem transient : Returns (M.transient : M σ α) := nofun
theorem panic : Returns (M.panic : M σ α) := nofun

theorem bind {m : M σ α} {f : α → M σ β} (h : Returns m) (g : ∀ a, Returns (f a)) : Returns (M.bind m f) := by
  intro s
  have h1 := h s
  unfold M.bind M.andThen
  split
  · exact g _ _
  · rename_i e _ hm
    rw [hm] at h1
    intro h2
    cases h2
    exact h1 rfl

end Returns

/-- Prove that a function written by cases never fails to come to an end. -/
macro "returns" : tactic => `(tactic|
  repeat' first
    | with_reducible exact Returns.pure _
    | with_reducible exact Returns.get
    | with_reducible exact Returns.set _
    | with_reducible exact Returns.modify _
    | with_reducible exact Returns.fatal _
    | with_reducible exact Returns.transient
    | with_reducible exact Returns.panic
    | assumption
    | with_reducible refine Returns.bind ?_ (fun _ => ?_)
    | split)

namespace E12
open Verif Wire Window Timer Aead M
variable {env : Env}

theorem createRecord_halts (c : UInt8) (ep : Nat) (sv fo : Bool) (f : Bytes) : Returns (createRecord env c ep sv fo f) :=
  fun _ => Props.Frag13.createRecord12_ends

theorem resendLoop_halts (l : List Entry) (fo : Bool) : Returns (resendLoop env l fo) := by
  induction l generalizing fo with
  | nil => exact .pure _
  | cons e rest ih => exact .bind (createRecord_halts _ _ _ _ _) fun _ => ih _

theorem flightResend_halts : Returns (flightResend env) := by
  intro s
  unfold flightResend
  exact resendLoop_halts _ _ _

theorem recordParse_halts (b : Bytes) : Returns (recordParse env b) := by
  intro s
  unfold recordParse openRecord
  dsimp only
  repeat' split
  all_goals nofun

theorem parseSlices_halts (l : List Bytes) (e : SplitEnd) (acc : List Rx) : Returns (parseSlices env l e acc) := by
  induction l generalizing acc with
  | nil => cases e <;> unfold parseSlices <;> returns
  | cons b rest ih =>
    unfold parseSlices
    refine .bind (recordParse_halts _) fun r => ?_
    repeat' split
    all_goals first | exact ih _ | exact .transient

theorem classify_halts (r : Rx) : Returns (classify r) := by
  intro s
  unfold classify classifyAlert
  repeat' split
  all_goals nofun

theorem classifyAll_halts (l acc : List Rx) : Returns (classifyAll l acc) := by
  induction l generalizing acc with
  | nil => exact .pure _
  | cons r rest ih =>
    refine .bind (classify_halts _) fun o => ?_
    split
    all_goals exact ih _

theorem insertIncoming_halts (rs : List Rx) : Returns (insertIncoming env rs) := by
  have h1 : ∀ l, Returns (insertHs env l) := fun l s => by
    unfold insertHs; dsimp only; split <;> nofun
  have h2 : ∀ l, Returns (insertBySeq env l) := fun l s => by
    unfold insertBySeq; dsimp only; repeat' split
    all_goals nofun
  have h3 : Returns (maybeResend env rs) := fun s => by
    unfold maybeResend
    repeat' split
    all_goals first | exact flightResend_halts s | nofun
  have h4 : ∀ x n, Returns (insertHandshakeTail env rs x n) := fun x n s => by
    unfold insertHandshakeTail
    repeat' split
    all_goals first | exact h1 _ s | nofun
  intro s
  unfold insertIncoming
  split
  · nofun
  split
  · nofun
  split
  · exact Returns.bind h3 (fun _ => h4 _ _) s
  · unfold insertNonHandshake
    split
    · nofun
    · exact h2 _ s

theorem parsePacket_halts (p : Bytes) : Returns (parsePacket env p) := by
  unfold parsePacket recordsParse
  refine .bind (.bind (parseSlices_halts _ _ _) fun _ => classifyAll_halts _ _) fun rs => ?_
  split
  · exact .pure _
  · exact insertIncoming_halts _

theorem reparse_halts (l : List Bytes) : Returns (reparse env l) := by
  induction l with
  | nil => exact .pure _
  | cons b rest ih => exact .bind (parsePacket_halts _) fun _ => ih

theorem enablePeer_halts : Returns (enablePeerEncryption env) := by
  intro s
  unfold enablePeerEncryption
  dsimp only
  split
  · nofun
  · exact reparse_halts _ _

theorem nextHandshake_halts (t : UInt8) : Returns (nextHandshake env t) := by
  intro s
  unfold nextHandshake defragment
  dsimp only
  repeat' split
  all_goals nofun

theorem nextRecord_halts (c : UInt8) : Returns (nextRecord c) := by
  intro s
  unfold nextRecord
  repeat' split
  all_goals nofun

theorem handleTimeout_halts (n : Nat) : Returns (handleTimeout env n) := by
  intro s
  unfold handleTimeout
  dsimp only
  split
  all_goals first | exact flightResend_halts _ | nofun

theorem setCipherSuite_halts (n : Nat) : Returns (setCipherSuite env n) := by
  intro s
  unfold setCipherSuite
  split <;> nofun

theorem generateVerifyData_halts (b : Bool) : Returns (generateVerifyData env b) := by
  intro s
  unfold generateVerifyData
  repeat' split
  all_goals nofun

/-- A record of the suite leaves room in a datagram. -/
def Roomy (e : Eng) : Prop := 64 ≤ e.cfg.mtu ∧ e.minProt ≤ 24

/-- No suite adds more than 24 bytes to a record. -/
def Slim (env : Env) : Prop := ∀ cs x m, env.suiteParams cs = some (x, m) → m ≤ 24

theorem createHandshake_halts {t : UInt8} {body : Bytes} {e : Eng} (h : Roomy e) :
    (createHandshake env t body e).1 ≠ .fail .diverge := by
  have ho : e.overhead (msgEpoch t) ≤ 24 := by
    unfold Eng.overhead
    have := h.2
    split <;> omega
  have hm := h.1
  unfold createHandshake
  dsimp only
  split
  · simp
  split
  · simp
  · exact Props.Frag13.loop12_ends _ _ (by dsimp only; omega) (by omega)

/-- Keeps the room. -/
def Spares (a b : Eng) : Prop := Roomy a → Roomy b

theorem Keep.kept {a b : Eng} (h : Keep a b) : Spares a b := by
  unfold Spares Roomy
  rw [h.cfg, h.minProt]
  exact id

theorem kept_in (env : Env) : InFrame env Spares where
  refl _ h := h
  trans _ _ _ h g x := g (h x)
  recv e p := by
    obtain ⟨rp, cf, cr, es, he, hs⟩ := recordsParse_frame env p e
    rw [hs]; exact id
  resend e := (flightResend_frame env e).keep.kept
  rx _ _ _ := id
  peerEnc _ := id

theorem kept_frame {env : Env} (hs : Slim env) : Frame env Spares where
  refl _ h := h
  trans _ _ _ h g x := g (h x)
  handshake e t b := by
    unfold createHandshake
    dsimp only
    split
    · exact id
    split
    · exact id
    · exact fun h => (fragmentLoop_frame ..).keep.kept h
  ccs _ := (createRecord_frame ..).keep.kept
  nextHandshake e t := by
    unfold nextHandshake defragment
    dsimp only
    repeat' split
    all_goals exact id
  nextRecord e c := by
    unfold nextRecord
    repeat' split
    all_goals exact id
  enablePeer e := (kept_in env).enablePeer e
  flightBegin _ := id
  resetServer e := id
  resetClient e := id
  dropCcs e := id
  tick _ := id
  suite e cs := by
    unfold setCipherSuite
    split
    · exact id
    · exact fun h => ⟨h.1, hs _ _ _ (by assumption)⟩
  master _ _ := id
  keys _ _ := id
  flightStop _ := id
  release _ := id

section
variable {St : Type}

/-- In a session with room `m` comes to an end and leaves room. -/
def Lasts {α : Type} (m : P St α) : Prop :=
  ∀ s, Roomy s.eng → (m s).1 ≠ .fail .diverge ∧ Roomy (m s).2.eng

variable {α β : Type}

theorem Lasts.of {m : P St α} (h : Returns m) (g : ∀ s, Spares s.eng (m s).2.eng) : Lasts m := fun s hs => ⟨h s, g s hs⟩
theorem Lasts.pure (a : α) : Lasts (M.pure a : P St α) := .of (.pure a) fun _ => id
theorem Lasts.get : Lasts (M.get : P St (Ses St)) := .of .get fun _ => id
theorem Lasts.fatal (e : Error) : Lasts (M.fatal e : P St α) := .of (.fatal e) fun _ => id
theorem Lasts.transient : Lasts (M.transient : P St α) := .of .transient fun _ => id
theorem Lasts.panic : Lasts (M.panic : P St α) := .of .panic fun _ => id

theorem Lasts.bind {m : P St α} {f : α → P St β} (h : Lasts m) (g : ∀ a, Lasts (f a)) : Lasts (M.bind m f) := by
  intro s hs
  obtain ⟨h1, h2⟩ := h s hs
  unfold M.bind M.andThen
  split
  · rename_i a s' hm
    rw [hm] at h2
    exact g _ _ h2
  · rename_i e s' hm
    rw [hm] at h1 h2
    refine ⟨fun h3 => ?_, h2⟩
    cases h3
    exact h1 rfl

theorem Lasts.modify {f : Ses St → Ses St} (h : ∀ s, Spares s.eng (f s).eng) : Lasts (M.modify f) := .of (.modify _) h
theorem Lasts.check (c : Bool) (e : Error) : Lasts (check c e : P St Unit) := by
  unfold E12.check; split
  · exact .pure _
  · exact .fatal _
theorem Lasts.orFatal (o : Option α) (e : Error) : Lasts (orFatal o e : P St α) := by
  cases o
  · exact .fatal _
  · exact .pure _
theorem Lasts.orPanic (o : Option α) : Lasts (orPanic o : P St α) := by
  cases o
  · exact .panic
  · exact .pure _
theorem Lasts.orTransient (o : Option α) : Lasts (orTransient o : P St α) := by
  cases o
  · exact .transient
  · exact .pure _
theorem Lasts.onEng {m : E α} (g : Returns m) (h : ∀ e, Spares e (m e).2) : Lasts (E12.onEng m : P St α) :=
  fun s hs => ⟨g s.eng, h s.eng hs⟩
theorem Lasts.onEng' {f : Eng → Eng} (h : ∀ e, Spares e (f e)) : Lasts (E12.onEng' f : P St Unit) :=
  .modify fun s => h s.eng
theorem Lasts.drawTick : Lasts (drawTick : P St Nat) := fun _ hs => ⟨nofun, hs⟩
theorem Lasts.handshake (hs : Slim env) (t b) : Lasts (E12.onEng (createHandshake env t b) : P St Unit) :=
  fun s h => ⟨createHandshake_halts h, (kept_frame hs).handshake _ _ _ h⟩
theorem Lasts.record (c : UInt8) (ep : Nat) (sv fo : Bool) (f : Bytes) :
    Lasts (E12.onEng (createRecord env c ep sv fo f) : P St Unit) :=
  .onEng (createRecord_halts _ _ _ _ _) fun _ => (createRecord_frame ..).keep.kept
theorem Lasts.next (hs : Slim env) (t) : Lasts (E12.onEng (nextHandshake env t) : P St (Option Body)) :=
  .onEng (nextHandshake_halts t) fun _ => (kept_frame hs).nextHandshake _ _
theorem Lasts.nextRecord (hs : Slim env) (t) : Lasts (E12.onEng (nextRecord t) : P St Bool) :=
  .onEng (nextRecord_halts t) fun _ => (kept_frame hs).nextRecord _ _
theorem Lasts.enable : Lasts (E12.onEng (enablePeerEncryption env) : P St Unit) :=
  .onEng enablePeer_halts fun _ => (kept_in env).enablePeer _
theorem Lasts.suite (hs : Slim env) (n) : Lasts (E12.onEng (setCipherSuite env n) : P St Unit) :=
  .onEng (setCipherSuite_halts n) fun _ => (kept_frame hs).suite _ _
theorem Lasts.verifyData (b) : Lasts (E12.onEng (generateVerifyData env b) : P St Bytes) :=
  .onEng (generateVerifyData_halts b) fun e => by rw [generateVerifyData_snd]; exact id

end

/-- Prove `Lasts` of a function by its syntax; `hs : Slim env` in context. -/
macro "lasts" hs:ident : tactic => `(tactic|
  repeat' first
    | with_reducible exact Lasts.pure _
    | with_reducible exact Lasts.get
    | with_reducible exact Lasts.fatal _
    | with_reducible exact Lasts.transient
    | with_reducible exact Lasts.panic
    | with_reducible exact Lasts.check _ _
    | with_reducible exact Lasts.orFatal _ _
    | with_reducible exact Lasts.orPanic _
    | with_reducible exact Lasts.orTransient _
    | with_reducible exact Lasts.handshake $hs _ _
    | with_reducible exact Lasts.record _ _ _ _ _
    | with_reducible exact Lasts.next $hs _
    | with_reducible exact Lasts.nextRecord $hs _
    | with_reducible exact Lasts.enable
    | with_reducible exact Lasts.suite $hs _
    | with_reducible exact Lasts.verifyData _
    | with_reducible exact Lasts.drawTick
    | (with_reducible refine Lasts.onEng' ?_) <;> exact fun _ h => h
    | (with_reducible refine Lasts.modify ?_) <;> exact fun _ h => h
    | assumption
    | with_reducible refine Lasts.bind ?_ (fun _ => ?_)
    | split)

section shared
variable {St : Type} {env : PEnv} (hs : Slim env.toEnv)
include hs

theorem announceConnected_fin (a : St) (f g) : Lasts (announceConnected env a f g) := by
  unfold announceConnected; simp only [bind_eq, pure_eq]; lasts hs
theorem awaitChangeCipherSpec_fin (a b : St) : Lasts (awaitChangeCipherSpec env a b) := by
  unfold awaitChangeCipherSpec; simp only [bind_eq, pure_eq]; lasts hs
theorem deriveMaster_fin (a b c d) : Lasts (deriveMaster env a b c d : P St Unit) := by
  unfold deriveMaster; simp only [bind_eq]; lasts hs
theorem drainLoop_fin (l : List Bytes) : Lasts (drainLoop env l : P St Unit) := by
  induction l with
  | nil => exact .pure _
  | cons d rest ih => unfold drainLoop; simp only [bind_eq]; lasts hs
theorem awaitApplicationData_fin (a b : St) : Lasts (awaitApplicationData env a b) := by
  have h : Lasts (drainQueued env : P St Unit) := fun s g => drainLoop_fin hs s.queued { s with queued := [] } g
  unfold awaitApplicationData sendCloseNotify; simp only [bind_eq, pure_eq]
  lasts hs
end shared

namespace C12
variable {env : PEnv} (hs : Slim env.toEnv)
include hs

theorem serverExtensions_fin (l b) : Lasts (serverExtensions env l b) := by
  induction l generalizing b with
  | nil => exact .pure _
  | cons x rest ih =>
    obtain ⟨t, d⟩ := x
    unfold serverExtensions
    simp only [bind_eq]
    lasts hs
    all_goals exact ih _

theorem step_fin (st : CSt) : Lasts (C12.step env st) := by
  have h1 := fun l b => serverExtensions_fin hs l b
  have h3 := fun a b => awaitChangeCipherSpec_fin (St := CSt) hs a b
  have h4 := fun a b c d => deriveMaster_fin (St := CSt) hs a b c d
  have h5 := fun a b => awaitApplicationData_fin (St := CSt) hs a b
  cases st
  all_goals unfold step
  · unfold sendClientHello; simp only [bind_eq, pure_eq]; lasts hs
  · unfold awaitHelloVerifyRequest; simp only [bind_eq, pure_eq]; lasts hs
  · unfold awaitServerHello; simp only [bind_eq, pure_eq]; lasts hs; exact h1 _ _
  · unfold awaitCertificate; simp only [bind_eq, pure_eq]; lasts hs
  · unfold awaitServerKeyExchange awaitServerKeyExchangePsk awaitServerKeyExchangeEcdhe processEcdh
    simp only [bind_eq, pure_eq]; lasts hs
  · unfold awaitCertificateRequest; simp only [bind_eq, pure_eq]; lasts hs
  · unfold awaitServerHelloDone; simp only [bind_eq, pure_eq]; lasts hs
  · unfold sendCertificate; simp only [bind_eq, pure_eq]; lasts hs
  · unfold sendClientKeyExchange clientKeyExchangeBody; simp only [bind_eq, pure_eq]; lasts hs
  · unfold sendCertificateVerify certificateVerifyBody; simp only [bind_eq, pure_eq]; lasts hs
  · unfold sendChangeCipherSpec deriveKeys; simp only [bind_eq, pure_eq]; lasts hs; exact h4 _ _ _ _
  · unfold sendFinished; simp only [bind_eq, pure_eq]; lasts hs
  · exact h3 _ _
  · unfold awaitNewSessionTicket; simp only [bind_eq, pure_eq]; lasts hs
  · unfold awaitFinished; simp only [bind_eq, pure_eq]; lasts hs; exact announceConnected_fin hs _ _ _
  · exact h5 _ _
  · exact .pure _

end C12

namespace S12
variable {env : PEnv} (hs : Slim env.toEnv)
include hs

theorem clientExtensions_fin (l x) : Lasts (clientExtensions env l x) := by
  induction l generalizing x with
  | nil => exact .pure _
  | cons e rest ih =>
    obtain ⟨t, d⟩ := e
    unfold clientExtensions
    simp only [bind_eq]
    lasts hs
    all_goals exact ih _

theorem finishClientKx_fin (n) : Lasts (finishClientKx env n) := by
  have h4 := fun a b c d => deriveMaster_fin (St := SSt) hs a b c d
  unfold finishClientKx; simp only [bind_eq, pure_eq]; lasts hs
  exact h4 _ _ _ _
theorem clientKxEcdh_fin (n) : Lasts (clientKxEcdh env n) := by
  unfold clientKxEcdh; simp only [bind_eq]; lasts hs
theorem clientKxPsk_fin (n) : Lasts (clientKxPsk env n) := by
  unfold clientKxPsk; simp only [bind_eq]; lasts hs

theorem step_fin (st : SSt) : Lasts (S12.step env st) := by
  have h1 := fun l b => clientExtensions_fin hs l b
  have h3 := fun a b => awaitChangeCipherSpec_fin (St := SSt) hs a b
  have h4 := fun n => finishClientKx_fin hs n
  have h5 := fun n => clientKxEcdh_fin hs n
  have h6 := fun n => clientKxPsk_fin hs n
  cases st
  all_goals unfold step
  · unfold awaitClientHello acceptClientHello sendHelloVerify; simp only [bind_eq, pure_eq]; lasts hs; exact h1 _ _
  · unfold sendServerHello; simp only [bind_eq, pure_eq]; lasts hs
  · unfold sendCertificate; simp only [bind_eq, pure_eq]; lasts hs
  · unfold sendServerKeyExchange sendServerKeyExchangePsk sendServerKeyExchangeEcdhe serverKeyExchangeBody
    simp only [bind_eq, pure_eq]; lasts hs
  · unfold sendCertificateRequest; simp only [bind_eq, pure_eq]; lasts hs
  · unfold sendServerHelloDone; simp only [bind_eq, pure_eq]; lasts hs
  · unfold awaitCertificate; simp only [bind_eq, pure_eq]; lasts hs
  · unfold awaitClientKeyExchange; simp only [bind_eq, pure_eq]; lasts hs
    all_goals first | exact h4 _ | exact h5 _ | exact h6 _
  · unfold awaitCertificateVerify; simp only [bind_eq, pure_eq]; lasts hs
  · exact h3 _ _
  · unfold awaitFinished; simp only [bind_eq, pure_eq]; lasts hs
  · unfold sendChangeCipherSpec; simp only [bind_eq, pure_eq]; lasts hs
  · unfold sendFinished; simp only [bind_eq]; lasts hs; exact announceConnected_fin hs _ _ _
  · exact awaitApplicationData_fin hs _ _
  · exact .pure _

end S12
/-- A measure that every change of state lowers. -/
structure Falls (R : Role) (env : PEnv) (μ : Ses R.St → Nat) : Prop where
  ends : ∀ st, Lasts (R.step env st)
  falls : ∀ s new s', R.step env s.st s = (.ok new, s') → new = s.st ∨ μ { s' with st := new } < μ s
  low : ∀ s, μ s < progressFuel

section
variable {R : Role} {env : PEnv} {μ : Ses R.St → Nat}

theorem Falls.progress (h : Falls R env μ) (n : Nat) : ∀ s, Roomy s.eng → μ s < n →
    (progress R env n s).1 ≠ .fail .diverge ∧ Roomy (progress R env n s).2.eng := by
  induction n with
  | zero => intro s _ hn; omega
  | succ n ih =>
    intro s hr hn
    obtain ⟨h1, h2⟩ := h.ends s.st s hr
    have h3 := h.falls s
    unfold E12.progress
    simp only [bind_eq, pure_eq, M.bind, M.get, M.andThen]
    generalize hx : R.step env s.st s = x at h1 h2
    obtain ⟨r, s'⟩ := x
    cases r with
    | fail e => exact ⟨fun h4 => by cases h4; exact h1 rfl, h2⟩
    | ok new =>
      dsimp only
      split
      · exact ⟨nofun, h2⟩
      · rename_i hne
        have h4 := (h3 new s' hx).resolve_left fun g => hne g.symm
        exact ih { s' with st := new } h2 (by omega)

/-- How often the loop may go round makes no difference, as long as it is often enough. -/
theorem Falls.fuel (h : Falls R env μ) (n : Nat) : ∀ m s, Roomy s.eng → μ s < n → μ s < m →
    E12.progress R env n s = E12.progress R env m s := by
  induction n with
  | zero => intro m s _ hn; omega
  | succ n ih =>
    intro m s hr hn hm
    cases m with
    | zero => omega
    | succ m =>
      obtain ⟨h1, h2⟩ := h.ends s.st s hr
      have h3 := h.falls s
      unfold E12.progress
      simp only [bind_eq, pure_eq, M.bind, M.get, M.andThen]
      generalize hx : R.step env s.st s = x at h1 h2
      obtain ⟨r, s'⟩ := x
      cases r with
      | fail e => rfl
      | ok new =>
        dsimp only
        split
        · rfl
        · rename_i hne
          have h4 := (h3 new s' hx).resolve_left fun g => hne g.symm
          exact ih m { s' with st := new } h2 (by omega) (by omega)

/-- Every call returns and leaves room. -/
theorem Falls.call (h : Falls R env μ) (s : Ses R.St) (hr : Roomy s.eng) (c : Call) :
    (call R env s c).1 ≠ .res .diverge ∧ Roomy (call R env s c).2.eng := by
  have key : ∀ (m : P R.St Unit), Lasts m → .res (toApi (m s).1) ≠ Ret.res .diverge ∧ Roomy (m s).2.eng := by
    intro m hm
    obtain ⟨h1, h2⟩ := hm s hr
    refine ⟨fun h3 => h1 ?_, h2⟩
    generalize (m s).1 = r at h3
    injection h3 with h3
    cases r with
    | ok => cases h3
    | fail e => cases e <;> first | rfl | cases h3
  have hp : Lasts (E12.progress R env progressFuel) := fun s hs => h.progress _ s hs (h.low s)
  cases c with
  | packet p =>
    refine key (handlePacketM R env p) ?_
    unfold handlePacketM
    exact .bind (.onEng (parsePacket_halts p) fun _ => (kept_in env.toEnv).parsePacket p _) fun _ => hp
  | timeout now =>
    refine key (handleTimeoutM R env now) ?_
    unfold handleTimeoutM
    refine .bind (.modify fun s => ?_) fun _ => .bind (.onEng (handleTimeout_halts now) fun e => ?_) fun _ => hp
    · unfold noteTime; split <;> exact id
    · unfold handleTimeout
      dsimp only
      split
      all_goals first | exact id | exact fun x => (kept_in env.toEnv).resend _ x
  | send d =>
    refine key (sendM R env d) ?_
    unfold sendM
    simp only [bind_eq]
    refine .bind .get fun s => ?_
    repeat' split
    · exact .fatal _
    · exact .modify fun _ => id
    · exact .record _ _ _ _ _
  | close =>
    refine key (closeM R env) ?_
    unfold closeM sendCloseNotify
    simp only [bind_eq, pure_eq]
    refine .bind .get fun s => ?_
    repeat' split
    · exact .pure _
    · exact .bind (.onEng' fun _ => id) fun _ => .modify fun _ => id
    · exact .bind (.record _ _ _ _ _) fun _ => .modify fun _ => id
  | poll n =>
    refine ⟨nofun, ?_⟩
    show Roomy (pollM R n s).2.eng
    unfold pollM
    split
    · exact hr
    · unfold pollOutput pollRest purge
      dsimp only
      repeat' split
      all_goals exact hr

/-- No call of any sequence of calls hangs. -/
theorem Falls.run (h : Falls R env μ) (cs : List Call) : ∀ s, Roomy s.eng → .res .diverge ∉ (run R env s cs).1 := by
  induction cs with
  | nil => intro s _ h; cases h
  | cons c cs ih =>
    intro s hr
    obtain ⟨h1, h2⟩ := h.call s hr c
    unfold E12.run
    dsimp only
    split
    · exact fun hm => h1 (List.mem_singleton.mp hm).symm
    · intro hm
      rcases List.mem_cons.mp hm with hm | hm
      · exact h1 hm.symm
      · exact ih _ h2 hm

end

namespace C12

/-- States left to go through; sending a ClientHello with a cookie comes after sending one without. -/
def left : CSt → Option Bytes → Nat
  | .sendClientHello, none => 18
  | .awaitHelloVerifyRequest, _ => 17
  | .sendClientHello, some _ => 16
  | .awaitServerHello, _ => 15
  | .awaitCertificate, _ => 14
  | .awaitServerKeyExchange, _ => 13
  | .awaitCertificateRequest, _ => 12
  | .awaitServerHelloDone, _ => 11
  | .sendCertificate, _ => 10
  | .sendClientKeyExchange, _ => 9
  | .sendCertificateVerify, _ => 8
  | .sendChangeCipherSpec, _ => 7
  | .sendFinished, _ => 6
  | .awaitChangeCipherSpec, _ => 5
  | .awaitNewSessionTicket, _ => 4
  | .awaitFinished, _ => 3
  | .awaitApplicationData, _ => 2
  | .closed, _ => 1

theorem left_next {st new : CSt} (h : new ∈ next st) (h1 : st ≠ .sendClientHello)
    (h2 : st ≠ .awaitHelloVerifyRequest) : new = st ∨ ∀ a b, left new a < left st b := by
  revert h1 h2 h
  cases st <;> cases new <;> simp [next, left]

theorem left_first {new : CSt} (h : new ∈ next .sendClientHello) (a) : left new a < left .sendClientHello none := by
  revert h
  cases new <;> simp [next, left]

theorem left_second {new : CSt} (h : new ∈ next .awaitHelloVerifyRequest) (g : new ≠ .sendClientHello) (a b) :
    new = .awaitHelloVerifyRequest ∨ left new a < left .awaitHelloVerifyRequest b := by
  revert h g
  cases new <;> simp [next, left]

theorem sendClientHello_goes {env : PEnv} (s : Ses CSt) : wp (sendClientHello env) s
    (fun new _ => new = .awaitServerHello ∨ s.cookie = none) (fun _ _ => True) := by
  unfold sendClientHello
  simp only [bind_eq, pure_eq]
  rw [wp_bind, wp_get, wp_bind]
  refine wp_orPanic_of (fun r _ => ?_) trivial
  rw [wp_bind, wp_onEng', wp_bind]
  refine wp_of (fun _ _ _ => ?_) (fun _ _ _ => trivial)
  rw [wp_pure]
  split
  · exact .inr (by assumption)
  · exact .inl rfl

theorem awaitHelloVerifyRequest_goes {env : PEnv} (s : Ses CSt) : wp (awaitHelloVerifyRequest env) s
    (fun new s' => new = .sendClientHello → ∃ c, s'.cookie = some c) (fun _ _ => True) := by
  unfold awaitHelloVerifyRequest
  simp only [bind_eq, pure_eq]
  rw [wp_bind, wp_get]
  split
  · rw [wp_pure]; nofun
  rw [wp_bind]
  refine wp_of (fun m s1 _ => ?_) (fun _ _ _ => trivial)
  split
  · rw [wp_pure]; nofun
  · rw [wp_bind]
    refine wp_check_of (fun _ => ?_) trivial
    rw [wp_bind, wp_modify, wp_bind, wp_onEng', wp_pure]
    exact fun _ => ⟨_, rfl⟩
  · trivial

theorem falls {env : PEnv} (hs : Slim env.toEnv) : Falls role env (fun s => left s.st s.cookie) where
  ends := step_fin hs
  low s := by
    unfold left
    split <;> decide
  falls s new s' hx := by
    have hn : new ∈ next s.st := step_next s.st s new s' hx
    by_cases h1 : s.st = .sendClientHello
    · rw [h1] at hx
      have h2 := wp_ok (sendClientHello_goes s) hx
      dsimp only
      rw [h1] at hn ⊢
      rcases h2 with rfl | h2
      · right; cases s.cookie <;> simp [left]
      · rw [h2]; exact .inr (left_first hn _)
    by_cases h2 : s.st = .awaitHelloVerifyRequest
    · rw [h2] at hx
      have h3 := wp_ok (awaitHelloVerifyRequest_goes s) hx
      dsimp only
      rw [h2] at hn ⊢
      by_cases h4 : new = .sendClientHello
      · obtain ⟨c, h5⟩ := h3 h4
        rw [h4, h5]; right; simp [left]
      · exact left_second hn h4 _ _
    exact (left_next hn h1 h2).imp_right fun h => h _ _

end C12

namespace S12

/-- States left to go through. -/
def left : SSt → Nat
  | .awaitClientHello => 15
  | .sendServerHello => 14
  | .sendCertificate => 13
  | .sendServerKeyExchange => 12
  | .sendCertificateRequest => 11
  | .sendServerHelloDone => 10
  | .awaitCertificate => 9
  | .awaitClientKeyExchange => 8
  | .awaitCertificateVerify => 7
  | .awaitChangeCipherSpec => 6
  | .awaitFinished => 5
  | .sendChangeCipherSpec => 4
  | .sendFinished => 3
  | .awaitApplicationData => 2
  | .closed => 1

theorem left_next {st new : SSt} (h : new ∈ next st) : new = st ∨ left new < left st := by
  revert h
  cases st <;> cases new <;> simp [next, left]

theorem falls {env : PEnv} (hs : Slim env.toEnv) : Falls role env (fun s => left s.st) where
  ends := step_fin hs
  low s := by
    show left s.st < 40
    cases s.st <;> decide
  falls s new s' hx := left_next (step_next s.st s new s' hx)

end S12
end E12
end Verif

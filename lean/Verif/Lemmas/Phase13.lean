import Verif.Lemmas.Session13
import Verif.Lemmas.Tx13
import Verif.Lemmas.Rx13
/-!
# Invariants that depend on how far a DTLS 1.3 handshake has come

The engine of a session goes through four phases: no keys, handshake keys, application keys, data
released. An invariant gives one predicate per phase.
-/
namespace Verif.E13
open Verif Wire Window Timer Aead M
open Verif.E12 (Call Ret)

/-! ## Which state comes next -/

/-- Every result of `m` is in `p`. -/
def Gives {St α : Type} (p : α → Prop) (m : P St α) : Prop := ∀ s a, (m s).1 = .ok a → p a

section gives
variable {St α β : Type} {p : β → Prop}

theorem Gives.pure {b : β} (h : p b) : Gives p (M.pure b : P St β) := by
  intro s a h'; cases h'; exact h
theorem Gives.fail (f : Fault) : Gives p (M.fail f : P St β) := by intro s a h'; cases h'
theorem Gives.fatal (e : Error) : Gives p (M.fatal e : P St β) := .fail _
theorem Gives.transient : Gives p (M.transient : P St β) := .fail _
theorem Gives.panic : Gives p (M.panic : P St β) := .fail _
theorem Gives.bind {m : P St α} {f : α → P St β} (h : ∀ a, Gives p (f a)) : Gives p (M.bind m f) := by
  intro s a h'
  unfold M.bind M.andThen at h'
  split at h'
  · exact h _ _ _ h'
  · cases h'

macro "gives" : tactic => `(tactic|
  repeat' first
    | with_reducible exact Gives.fatal _
    | with_reducible exact Gives.transient
    | with_reducible exact Gives.panic
    | assumption
    | (with_reducible refine Gives.pure ?_; decide)
    | with_reducible refine Gives.bind (fun _ => ?_)
    | split)
end gives

theorem awaitCertificateVerify_gives {St : Type} {env : PEnv} {label : Bytes} {x y : St} {p : St → Prop}
    (hx : p x) (hy : p y) : Gives p (awaitCertificateVerify env label x y) := by
  have h1 : Gives p (M.pure x : P St St) := .pure hx
  have h2 : Gives p (M.pure y : P St St) := .pure hy
  unfold awaitCertificateVerify; simp only [bind_eq, pure_eq]; gives

theorem announceConnected_gives {St : Type} {env : PEnv} {f : Eng → Eng} {x : St} {p : St → Prop}
    (hx : p x) : Gives p (announceConnected env f x) := by
  have h1 : Gives p (M.pure x : P St St) := .pure hx
  unfold announceConnected; simp only [bind_eq, pure_eq]; gives

/-- Successors of a client state. -/
def C13.succ : CSt → List CSt
  | .sendClientHello => [.awaitServerHello]
  | .awaitServerHello => [.awaitServerHello, .sendClientHello, .awaitEncryptedExtensions]
  | .awaitEncryptedExtensions => [.awaitEncryptedExtensions, .awaitCertificateRequest]
  | .awaitCertificateRequest => [.awaitCertificateRequest, .awaitCertificate]
  | .awaitCertificate => [.awaitCertificate, .awaitCertificateVerify]
  | .awaitCertificateVerify => [.awaitCertificateVerify, .awaitFinished]
  | .awaitFinished => [.awaitFinished, .sendCertificate, .sendFinished]
  | .sendCertificate => [.sendCertificateVerify, .sendFinished]
  | .sendCertificateVerify => [.sendFinished]
  | .sendFinished => [.awaitApplicationData]
  | .awaitApplicationData => [.awaitApplicationData]
  | .halfClosedLocal => [.halfClosedLocal, .closed]
  | .closed => [.closed]

/-- Successors of a server state. -/
def S13.succ : SSt → List SSt
  | .awaitClientHello => [.awaitClientHello, .sendServerHello]
  | .sendServerHello => [.sendEncryptedExtensions]
  | .sendEncryptedExtensions => [.sendCertificateRequest, .sendCertificate]
  | .sendCertificateRequest => [.sendCertificate]
  | .sendCertificate => [.sendCertificateVerify]
  | .sendCertificateVerify => [.sendFinished]
  | .sendFinished => [.awaitCertificate, .awaitFinished]
  | .awaitCertificate => [.awaitCertificate, .awaitFinished, .awaitCertificateVerify]
  | .awaitCertificateVerify => [.awaitCertificateVerify, .awaitFinished]
  | .awaitFinished => [.awaitFinished, .awaitApplicationData]
  | .awaitApplicationData => [.awaitApplicationData]
  | .halfClosedLocal => [.halfClosedLocal, .closed]
  | .closed => [.closed]

theorem C13.step_succ (env : PEnv) (st : CSt) : Gives (· ∈ succ st) (C13.step env st) := by
  cases st <;> unfold step
  case sendClientHello => unfold sendClientHello; simp only [bind_eq, pure_eq]; gives
  case awaitServerHello =>
    have h1 : ∀ n h, Gives (· ∈ succ .awaitServerHello) (helloRetry env n h) := by
      intro n h; unfold helloRetry; simp only [bind_eq, pure_eq]; gives
    have h2 : ∀ h, Gives (· ∈ succ .awaitServerHello) (serverHello env h) := by
      intro h; unfold serverHello; simp only [bind_eq, pure_eq]; gives
    unfold awaitServerHello; simp only [bind_eq, pure_eq]; gives
    · exact h1 _ _
    · exact h2 _
  case awaitEncryptedExtensions => unfold awaitEncryptedExtensions; simp only [bind_eq, pure_eq]; gives
  case awaitCertificateRequest => unfold awaitCertificateRequest; simp only [bind_eq, pure_eq]; gives
  case awaitCertificate => unfold awaitCertificate; simp only [bind_eq, pure_eq]; gives
  case awaitCertificateVerify => exact awaitCertificateVerify_gives (by decide) (by decide)
  case awaitFinished =>
    unfold awaitFinished; simp only [bind_eq, pure_eq]; gives
  case sendCertificate => unfold sendCertificate; simp only [bind_eq, pure_eq]; gives
  case sendCertificateVerify => unfold sendCertificateVerify; simp only [bind_eq, pure_eq]; gives
  case sendFinished =>
    have h1 := announceConnected_gives (env := env) (f := releaseAppData) (x := CSt.awaitApplicationData)
      (p := (· ∈ succ .sendFinished)) (by decide)
    unfold sendFinished; simp only [bind_eq]; gives
  case awaitApplicationData => unfold awaitApplicationData; simp only [bind_eq, pure_eq]; gives
  case halfClosedLocal =>
    unfold halfClosedLocal; simp only [bind_eq, pure_eq]; gives
  case closed => exact .pure (by decide)

theorem S13.step_succ (env : PEnv) (st : SSt) : Gives (· ∈ succ st) (S13.step env st) := by
  cases st <;> unfold step
  case awaitClientHello =>
    have h1 : ∀ a b c, Gives (· ∈ succ .awaitClientHello) (sendRetry env a b c) := by
      intro a b c; unfold sendRetry; simp only [bind_eq, pure_eq]; gives
    have h2 : ∀ a b c, Gives (· ∈ succ .awaitClientHello) (acceptClientHello env a b c) := by
      intro a b c; unfold acceptClientHello; simp only [bind_eq, pure_eq]; gives
    have h3 : ∀ a b c, Gives (· ∈ succ .awaitClientHello) (chooseShare env a b c) := by
      intro a b c; unfold chooseShare; simp only [bind_eq]; gives
      · exact h2 _ _ _
      · exact h1 _ _ _
    have h4 : ∀ a b c d, Gives (· ∈ succ .awaitClientHello) (checkCookie env a b c d) := by
      intro a b c d; unfold checkCookie; simp only [bind_eq, pure_eq]; gives
      all_goals first | exact h1 _ _ _ | exact h3 _ _ _
    have h5 : ∀ a b, Gives (· ∈ succ .awaitClientHello) (clientHello env a b) := by
      intro a b; unfold clientHello; simp only [bind_eq]; gives
      exact h4 _ _ _ _
    unfold awaitClientHello; simp only [bind_eq, pure_eq]; gives
    exact h5 _ _
  case sendServerHello => unfold sendServerHello; simp only [bind_eq, pure_eq]; gives
  case sendEncryptedExtensions =>
    unfold sendEncryptedExtensions; simp only [bind_eq, pure_eq]; gives
  case sendCertificateRequest => unfold sendCertificateRequest; simp only [bind_eq, pure_eq]; gives
  case sendCertificate => unfold sendCertificate; simp only [bind_eq, pure_eq]; gives
  case sendCertificateVerify => unfold sendCertificateVerify; simp only [bind_eq, pure_eq]; gives
  case sendFinished =>
    unfold sendFinished; simp only [bind_eq, pure_eq]; gives
  case awaitCertificate => unfold awaitCertificate; simp only [bind_eq, pure_eq]; gives
  case awaitCertificateVerify => exact awaitCertificateVerify_gives (by decide) (by decide)
  case awaitFinished =>
    have h1 := announceConnected_gives (env := env) (f := releaseRetaining) (x := SSt.awaitApplicationData)
      (p := (· ∈ succ .awaitFinished)) (by decide)
    unfold awaitFinished; simp only [bind_eq, pure_eq]; gives
  case awaitApplicationData => unfold awaitApplicationData; simp only [bind_eq, pure_eq]; gives
  case halfClosedLocal =>
    unfold halfClosedLocal; simp only [bind_eq, pure_eq]; gives
  case closed => exact .pure (by decide)

/-! ## Phases -/

/-- Phase of a client state; 4 is any. -/
def C13.phase : CSt → Nat
  | .sendClientHello | .awaitServerHello => 0
  | .awaitEncryptedExtensions | .awaitCertificateRequest | .awaitCertificate | .awaitCertificateVerify
  | .awaitFinished => 1
  | .sendCertificate | .sendCertificateVerify | .sendFinished => 2
  | .awaitApplicationData | .halfClosedLocal => 3
  | .closed => 4

/-- Phase of a server state; 4 is any. -/
def S13.phase : SSt → Nat
  | .awaitClientHello | .sendServerHello => 0
  | .sendEncryptedExtensions | .sendCertificateRequest | .sendCertificate | .sendCertificateVerify
  | .sendFinished => 1
  | .awaitCertificate | .awaitCertificateVerify | .awaitFinished => 2
  | .awaitApplicationData | .halfClosedLocal => 3
  | .closed => 4

/-- `I` at a phase. -/
def At (I : Nat → Eng → Prop) (p : Nat) (e : Eng) : Prop := if p < 4 then I p e else ∃ q, q < 4 ∧ I q e

/-- What remains of `I` at a phase after a failed call: `W` before the application keys are in place. -/
def Left (I W : Nat → Eng → Prop) (p : Nat) (e : Eng) : Prop := if p < 2 then W p e else At I p e

/-- `I` is kept within phases. -/
structure Phases (env : Env) (I W : Nat → Eng → Prop) : Prop where
  frame : ∀ p, p < 4 → Frame env (Keeps (I p))
  api : ∀ p, p < 4 → ApiFrame env (Keeps (I p))
  poll : ∀ p, p < 4 → ∀ e b n, I p e → I p (pollOutput b n e).2
  app : AppFrame env (fun _ => True) (Keeps (I 3))
  retry : ∀ e, I 0 e → I 0 (resetForHelloRetry e)
  weak : ∀ p, p < 2 → ∀ e, I p e → W p e

/-- How a client changes phase; `mid` holds between the two steps of the first change. -/
structure CPhases (env : Env) (I W : Nat → Eng → Prop) (mid : Eng → Prop) : Prop extends Phases env I W where
  hs : ∀ e a b, I 0 e → wp (installHandshakeKeys env a b) e (fun _ => mid) (fun f e' => W 0 e' ∧ f ≠ .transient)
  enable : ∀ e, mid e → wp (enablePeerEncryption env) e (fun _ => I 1)
    (fun f e' => W 0 e' ∧ (f = .transient → I 0 e'))
  weak1 : ∀ e, I 1 e → W 0 e
  appKeys : ∀ e a b, I 1 e →
    wp (installApplicationKeys env a b) e (fun _ => I 2) (fun f e' => W 1 e' ∧ f ≠ .transient)
  release : ∀ e, I 2 e → I 3 (releaseAppData e)

/-- How a server changes phase; `mid` holds between the two steps of the second change. -/
structure SPhases (env : Env) (I W : Nat → Eng → Prop) (mid : Eng → Prop) : Prop extends Phases env I W where
  hs : ∀ e a b, I 0 e → wp (installHandshakeKeys env a b) e (fun _ => I 1) (fun f e' => W 0 e' ∧ f ≠ .transient)
  appKeys : ∀ e a b, I 1 e →
    wp (installApplicationKeys env a b) e (fun _ => mid) (fun f e' => W 1 e' ∧ f ≠ .transient)
  enable : ∀ e, mid e → wp (enablePeerEncryption env) e (fun _ => I 2)
    (fun f e' => W 1 e' ∧ (f = .transient → I 1 e'))
  release : ∀ e, I 2 e → I 3 (releaseRetaining e)

theorem RoleOk.keep {R : Role} {env : PEnv} {keying : R.St → Bool} (ho : RoleOk R env keying) (s : Ses R.St) :
    (R.step env s.st s).2.st = s.st := by
  have hf : Frame env.toEnv (fun _ _ => True) := by constructor <;> intros <;> trivial
  have hk : KeyFrame env.toEnv (fun _ _ => True) := by constructor <;> intros <;> trivial
  have ha : AppFrame env.toEnv (fun _ => True) (fun _ _ => True) := by constructor <;> intros <;> trivial
  exact (step_afr ho hf hk ha s.st s (fun _ _ => trivial)).2.2

/-- One step of the state machine keeps the invariant `I`; after a failure that is not transient `J` is
left. -/
structure StepOk (R : Role) (env : PEnv) (I J : R.St → Eng → Prop) : Prop where
  weak : ∀ st e, I st e → J st e
  step : ∀ s : Ses R.St, I s.st s.eng → wp (R.step env s.st) s (fun new s' => I new s'.eng)
    (fun f s' => s'.st = s.st ∧ J s.st s'.eng ∧ (f = .transient → I s.st s'.eng))
  keep : ∀ s : Ses R.St, (R.step env s.st s).2.st = s.st
  packet : ∀ st e p, I st e → I st (parsePacket env.toEnv p e).2
  timeout : ∀ st e n, I st e → I st (handleTimeout env.toEnv n e).2
  tick : ∀ st e, I st e → I st { e with tick := e.tick + 1 }
  data : ∀ e d, I R.app e → I R.app (createCipher env.toEnv ctAppData e.appEpoch false d e).2
  alert : ∀ e, I R.app e → wp (createCipher env.toEnv ctAlert e.appEpoch false [1, 0]) e
    (fun _ e' => I R.halfClosed (cancelFlights e')) (fun _ e' => I R.app e')
  abort : ∀ st e, I st e → I R.closed (abort e)
  poll : ∀ st e b n, I st e → I st (pollOutput b n e).2

section steps
variable {env : PEnv} {I W : Nat → Eng → Prop} {mid : Eng → Prop}

theorem Fr.wp {St α : Type} {Q : Eng → Prop} {m : P St α} (h : Fr (Keeps Q) m) {s : Ses St} (hs : Q s.eng) :
    M.wp m s (fun _ s' => Q s'.eng ∧ s'.st = s.st) (fun _ s' => Q s'.eng ∧ s'.st = s.st) :=
  to_wp (R := fun s' : Ses St => Q s'.eng ∧ s'.st = s.st) ⟨(h s).1 hs, (h s).2.2⟩

theorem Fr.wpGives {St α : Type} {Q : Eng → Prop} {p : α → Prop} {m : P St α} (h : Fr (Keeps Q) m) (g : Gives p m)
    {s : Ses St} (hs : Q s.eng) :
    M.wp m s (fun a s' => p a ∧ Q s'.eng ∧ s'.st = s.st) (fun _ s' => Q s'.eng ∧ s'.st = s.st) := by
  have h1 := h.wp hs
  have h2 := g s
  unfold M.wp at h1 ⊢
  split
  · rename_i a s' he
    rw [he] at h1 h2
    exact ⟨h2 a rfl, h1⟩
  · rename_i f s' he
    rw [he] at h1
    exact h1

theorem installHandshake_wp {St : Type} (shared : Bytes) {s : Ses St} {Q : Eng → Prop} {V X : Eng → Prop}
    (h : ∀ e a b, Q e → wp (installHandshakeKeys env.toEnv a b) e (fun _ => V) (fun f e' => X e' ∧ f ≠ .transient))
    (hw : Q s.eng → X s.eng) (hs : Q s.eng) :
    M.wp (installHandshake env shared) s (fun _ s' => V s'.eng ∧ s'.st = s.st)
      (fun f s' => X s'.eng ∧ s'.st = s.st ∧ f ≠ .transient) := by
  unfold installHandshake
  simp only [bind_eq]
  rw [wp_bind, wp_get, wp_bind]
  refine wp_orPanic_of (fun suite _ => ?_) ⟨hw hs, rfl, nofun⟩
  rw [wp_bind]
  refine wp_orFatal_of (fun x _ => ?_) ⟨hw hs, rfl, nofun⟩
  obtain ⟨c, sv, k⟩ := x
  dsimp only
  rw [wp_bind, wp_modify, wp_onEng]
  exact wp_mono (h s.eng c sv hs) (fun _ _ h => ⟨h, rfl⟩) (fun _ _ h => ⟨h.1, rfl, h.2⟩)

theorem installApplication_wp {St : Type} {s : Ses St} {Q : Eng → Prop} {V X : Eng → Prop}
    (h : ∀ e a b, Q e → wp (installApplicationKeys env.toEnv a b) e (fun _ => V) (fun f e' => X e' ∧ f ≠ .transient))
    (hx : ∀ x, Q s.eng → Q { s.eng with exporter := some x }) (hw : Q s.eng → X s.eng) (hs : Q s.eng) :
    M.wp (installApplication env) s (fun _ s' => V s'.eng ∧ s'.st = s.st)
      (fun f s' => X s'.eng ∧ s'.st = s.st ∧ f ≠ .transient) := by
  unfold installApplication
  simp only [bind_eq]
  rw [wp_bind, wp_get, wp_bind]
  refine wp_orFatal_of (fun _ _ => ?_) ⟨hw hs, rfl, nofun⟩
  rw [wp_bind]
  refine wp_orPanic_of (fun suite _ => ?_) ⟨hw hs, rfl, nofun⟩
  rw [wp_bind]
  refine wp_orFatal_of (fun x _ => ?_) ⟨hw hs, rfl, nofun⟩
  obtain ⟨c, sv, k⟩ := x
  dsimp only
  rw [wp_bind, wp_onEng', wp_onEng]
  exact wp_mono (h _ c sv (hx _ hs)) (fun _ _ h => ⟨h, rfl⟩) (fun _ _ h => ⟨h.1, rfl, h.2⟩)

theorem announceConnected_wp {St : Type} {f : Eng → Eng} {st : St} {s : Ses St} {Q V : Eng → Prop}
    (h : ∀ e, Q e → V (f e)) (hs : Q s.eng) :
    M.wp (announceConnected env f st) s (fun new s' => new = st ∧ V s'.eng)
      (fun _ s' => Q s'.eng ∧ s'.st = s.st) := by
  unfold announceConnected
  simp only [bind_eq, pure_eq]
  rw [wp_bind, wp_modify, wp_bind, wp_get]
  split
  · exact ⟨rfl, h _ hs⟩
  · rw [wp_bind]
    refine wp_orPanic_of (fun suite _ => ?_) ⟨hs, rfl⟩
    split
    · split
      · exact ⟨rfl, h _ hs⟩
      · exact ⟨rfl, h _ hs⟩
    · exact ⟨rfl, h _ hs⟩

theorem advancePeerSeq_nt (e : Eng) : (advancePeerSeq e).1 ≠ .fail .transient := by
  unfold advancePeerSeq
  split <;> nofun

/-- One engine method that keeps `Q` and is never transient. -/
theorem onEng_wp {St α : Type} {m : E α} {Q : Eng → Prop} (h : ∀ e, Keeps Q e (m e).2) {s : Ses St} (hs : Q s.eng) :
    M.wp (onEng m) s (fun _ s' => Q s'.eng ∧ s'.st = s.st) (fun _ s' => Q s'.eng ∧ s'.st = s.st) :=
  (Fr.onEng h).wp hs

theorem advance_wp {St : Type} {Q : Eng → Prop} (h : ∀ e, Keeps Q e (advancePeerSeq e).2) {s : Ses St} (hs : Q s.eng) :
    M.wp (onEng advancePeerSeq) s (fun _ s' => Q s'.eng ∧ s'.st = s.st)
      (fun f s' => Q s'.eng ∧ s'.st = s.st ∧ f ≠ .transient) := by
  have := onEng_wp h hs
  rw [wp_onEng] at this ⊢
  have h2 := advancePeerSeq_nt s.eng
  unfold M.wp at *
  split
  · rename_i he; rw [he] at this; exact this
  · rename_i he; rw [he] at this h2; exact ⟨this.1, this.2, fun hf => h2 (hf ▸ rfl)⟩

theorem C13.helloRetry_gives (n h) : Gives (· = CSt.sendClientHello) (helloRetry env n h) := by
  unfold helloRetry; simp only [bind_eq, pure_eq]; gives
  all_goals exact .pure rfl

theorem C13.serverHello_wp (hp : CPhases env.toEnv I W mid) (h : ServerHello) {s : Ses CSt} (hs : I 0 s.eng) :
    M.wp (serverHello env h) s (fun new s' => new = .awaitEncryptedExtensions ∧ I 1 s'.eng)
      (fun f s' => s'.st = s.st ∧ W 0 s'.eng ∧ (f = .transient → I 0 s'.eng)) := by
  have hw := hp.weak 0 (by decide)
  unfold serverHello
  simp only [bind_eq, pure_eq]
  rw [wp_bind]
  refine wp_check_of (fun _ => ?_) ⟨rfl, hw _ hs, nofun⟩
  rw [wp_bind]
  refine wp_check_of (fun _ => ?_) ⟨rfl, hw _ hs, nofun⟩
  rw [wp_bind]
  refine wp_check_of (fun _ => ?_) ⟨rfl, hw _ hs, nofun⟩
  rw [wp_bind]
  refine wp_check_of (fun ha => ?_) ⟨rfl, hw _ hs, nofun⟩
  rw [wp_bind, wp_setSuite]
  have hs' := (hp.frame 0 (by decide)).suite s.eng h.suite ha hs
  rw [wp_bind, wp_modify, wp_bind]
  refine wp_orFatal_of (fun exts _ => ?_) ⟨rfl, hw _ hs', nofun⟩
  rw [wp_bind]
  refine wp_check_of (fun _ => ?_) ⟨rfl, hw _ hs', nofun⟩
  rw [wp_bind]
  refine wp_orFatal_of (fun x _ => ?_) ⟨rfl, hw _ hs', nofun⟩
  obtain ⟨group, pub⟩ := x
  dsimp only
  rw [wp_bind, wp_get, wp_bind, wp_modify, wp_bind]
  refine wp_orFatal_of (fun x _ => ?_) ⟨rfl, hw _ hs', nofun⟩
  obtain ⟨n, ours⟩ := x
  dsimp only
  rw [wp_bind]
  refine wp_check_of (fun _ => ?_) ⟨rfl, hw _ hs', nofun⟩
  rw [wp_bind]
  refine wp_orFatal_of (fun shared _ => ?_) ⟨rfl, hw _ hs', nofun⟩
  rw [wp_bind]
  refine wp_mono (installHandshake_wp shared hp.hs (hw _) hs') ?_ (fun _ _ h => ⟨h.2.1, h.1, fun hf => absurd hf h.2.2⟩)
  intro _ s1 ⟨h1, e1⟩
  rw [wp_bind, wp_onEng]
  refine wp_mono (hp.enable _ h1) ?_ (fun _ _ h => ⟨e1, h.1, h.2⟩)
  intro _ e2 h2
  rw [wp_bind]
  refine wp_mono (advance_wp (hp.frame 1 (by decide)).advance (s := { s1 with eng := e2 }) h2) ?_
    (fun _ _ h => ⟨h.2.1.trans e1, hp.weak1 _ h.1, fun hf => absurd hf h.2.2⟩)
  intro _ s3 h3
  exact ⟨rfl, h3.1⟩

/-- Steps of the client. -/
theorem C13.step_phase (hp : CPhases env.toEnv I W mid) (s : Ses CSt) (hs : At I (phase s.st) s.eng) :
    M.wp (C13.step env s.st) s (fun new s' => At I (phase new) s'.eng)
      (fun f s' => s'.st = s.st ∧ Left I W (phase s.st) s'.eng ∧ (f = .transient → At I (phase s.st) s'.eng)) := by
  have hI : ∀ st : CSt, phase st < 4 → ∀ e, At I (phase st) e ↔ I (phase st) e := by
    intro st h e; unfold At; rw [if_pos h]
  have hl : ∀ st e, At I (phase st) e → Left I W (phase st) e := by
    intro st e h
    unfold Left
    split
    · rename_i h2
      exact hp.weak _ h2 _ ((hI st (by omega) e).mp h)
    · exact h
  have plain : ∀ st : CSt, s.st = st → phase st < 4 → st ≠ .awaitApplicationData → st ≠ .halfClosedLocal →
      keying st = false → (∀ x ∈ succ st, phase x = phase st) →
      M.wp (C13.step env s.st) s (fun new s' => At I (phase new) s'.eng)
        (fun f s' => s'.st = s.st ∧ Left I W (phase s.st) s'.eng ∧ (f = .transient → At I (phase s.st) s'.eng)) := by
    intro st e h4 n1 n2 hk hsu
    subst e
    have hf := C13.step_fr (hp.frame _ h4) s.st n1 n2 (by rw [hk]; exact fun h => nomatch h)
    refine wp_mono (hf.wpGives (C13.step_succ env s.st) ((hI _ h4 _).mp hs)) ?_ ?_
    · intro a s' ⟨h1, h2, _⟩
      rw [hsu a h1]
      exact (hI _ h4 _).mpr h2
    · intro f s' ⟨h1, h2⟩
      have := (hI s.st h4 _).mpr h1
      exact ⟨h2, hl _ _ this, fun _ => this⟩
  cases hst : s.st <;> rw [hst] at hs
  case sendClientHello => rw [← hst]; exact plain _ hst (by decide) (by decide) (by decide) rfl (by decide)
  case awaitEncryptedExtensions => rw [← hst]; exact plain _ hst (by decide) (by decide) (by decide) rfl (by decide)
  case awaitCertificateRequest => rw [← hst]; exact plain _ hst (by decide) (by decide) (by decide) rfl (by decide)
  case awaitCertificate => rw [← hst]; exact plain _ hst (by decide) (by decide) (by decide) rfl (by decide)
  case awaitCertificateVerify => rw [← hst]; exact plain _ hst (by decide) (by decide) (by decide) rfl (by decide)
  case sendCertificate => rw [← hst]; exact plain _ hst (by decide) (by decide) (by decide) rfl (by decide)
  case sendCertificateVerify => rw [← hst]; exact plain _ hst (by decide) (by decide) (by decide) rfl (by decide)
  case awaitServerHello =>
    have h0 : I 0 s.eng := hs
    have hw := hp.weak 0 (by decide)
    unfold step awaitServerHello
    simp only [bind_eq, pure_eq]
    rw [wp_bind, wp_get, wp_bind]
    refine wp_mono ((nextHandshake_fr (hp.frame 0 (by decide)) mtServerHello).wp h0) ?_
      (fun _ _ h => ⟨h.2.trans hst, hw _ h.1, fun _ => h.1⟩)
    intro m s1 ⟨h1, e1⟩
    split
    · exact h1
    · rename_i h
      split
      · refine wp_mono ((helloRetry_fr (hp.frame 0 (by decide)) hp.retry s.eng.transcript.length h).wpGives
          (helloRetry_gives _ _) h1) ?_ (fun _ _ h => ⟨h.2.trans (e1.trans hst), hw _ h.1, fun _ => h.1⟩)
        intro a s2 ⟨ha, h2, _⟩
        rw [ha]; exact h2
      · refine wp_mono (serverHello_wp hp h h1) ?_ (fun _ _ h => ⟨h.1.trans (e1.trans hst), h.2.1, h.2.2⟩)
        intro a s2 ⟨ha, h2⟩
        rw [ha]; exact h2
    · exact ⟨e1.trans hst, hw _ h1, nofun⟩
  case awaitFinished =>
    have h0 : I 1 s.eng := hs
    have hw := hp.weak 1 (by decide)
    have hf := hp.frame 1 (by decide)
    unfold step awaitFinished
    simp only [bind_eq, pure_eq]
    rw [wp_bind, wp_get, wp_bind]
    refine wp_orFatal_of (fun secret _ => ?_) ⟨hst, hw _ h0, nofun⟩
    rw [wp_bind]
    refine wp_mono ((computeVerify_fr hf secret).wp h0) ?_ (fun _ _ h => ⟨h.2.trans hst, hw _ h.1, fun _ => h.1⟩)
    intro expected s1 ⟨h1, e1⟩
    rw [wp_bind]
    refine wp_mono ((nextHandshake_fr hf mtFinished).wp h1) ?_
      (fun _ _ h => ⟨h.2.trans (e1.trans hst), hw _ h.1, fun _ => h.1⟩)
    intro m s2 ⟨h2, e2⟩
    have e2' := e2.trans (e1.trans hst)
    split
    · exact h2
    · rw [wp_bind]
      refine wp_check_of (fun _ => ?_) ⟨e2', hw _ h2, nofun⟩
      rw [wp_bind]
      refine wp_mono (advance_wp hf.advance h2) ?_ (fun _ _ h => ⟨h.2.1.trans e2', hw _ h.1, fun hf => absurd hf h.2.2⟩)
      intro _ s3 ⟨h3, e3⟩
      rw [wp_bind]
      refine wp_mono (installApplication_wp hp.appKeys (fun x h => hf.exporter _ x h) (hw _) h3) ?_
        (fun _ _ h => ⟨h.2.1.trans (e3.trans e2'), h.1, fun hf => absurd hf h.2.2⟩)
      intro _ s4 ⟨h4, _⟩
      rw [wp_pure]
      split <;> exact h4
    · exact ⟨e2', hw _ h2, nofun⟩
  case sendFinished =>
    have h0 : I 2 s.eng := hs
    have hf := hp.frame 2 (by decide)
    unfold step sendFinished
    simp only [bind_eq]
    rw [wp_bind, wp_get]
    have rest : ∀ s1 : Ses CSt, I 2 s1.eng → s1.st = .sendFinished →
        M.wp (M.bind (orFatal s.clientHs .invalidState) fun secret => M.bind (computeVerify env secret) fun v =>
          M.bind (onEng (createHandshake env.toEnv mtFinished v)) fun _ =>
          announceConnected env releaseAppData CSt.awaitApplicationData) s1
        (fun new s' => At I (phase new) s'.eng)
        (fun f s' => s'.st = CSt.sendFinished ∧ Left I W (phase .sendFinished) s'.eng ∧
          (f = .transient → At I (phase .sendFinished) s'.eng)) := by
      intro s1 h1 e1
      rw [wp_bind]
      refine wp_orFatal_of (fun secret _ => ?_) ⟨e1, h1, nofun⟩
      rw [wp_bind]
      refine wp_mono ((computeVerify_fr hf secret).wp h1) ?_ (fun _ _ h => ⟨h.2.trans e1, h.1, fun _ => h.1⟩)
      intro v s2 ⟨h2, e2⟩
      rw [wp_bind]
      refine wp_mono (onEng_wp (fun e => hf.handshake e mtFinished v) h2) ?_
        (fun _ _ h => ⟨h.2.trans (e2.trans e1), h.1, fun _ => h.1⟩)
      intro _ s3 ⟨h3, e3⟩
      refine wp_mono (announceConnected_wp hp.release h3) ?_
        (fun _ _ h => ⟨h.2.trans (e3.trans (e2.trans e1)), h.1, fun _ => h.1⟩)
      intro new s4 ⟨hn, h4⟩
      rw [hn]; exact h4
    split
    · exact rest s h0 hst
    · rw [wp_bind, wp_onEng']
      exact rest _ (hf.flightBegin _ h0) hst
  case awaitApplicationData =>
    have h0 : I 3 s.eng := hs
    have h := awaitApplicationData_fr (hp.frame 3 (by decide)) hp.app CSt.awaitApplicationData s (fun _ _ => trivial)
    have hg := C13.step_succ env .awaitApplicationData s
    refine wp_of ?_ ?_
    · intro a s' he
      have h1 : I 3 s'.eng := by
        have := h.1 h0
        rw [show awaitApplicationData env CSt.awaitApplicationData s = _ from he] at this
        exact this
      have h2 : a ∈ succ .awaitApplicationData := hg a (by rw [he])
      rw [List.mem_singleton.mp h2]
      exact h1
    · intro f s' he
      have h1 := h.1 h0
      have h2 := h.2.2
      rw [show awaitApplicationData env CSt.awaitApplicationData s = _ from he] at h1 h2
      exact ⟨h2.trans hst, h1, fun _ => h1⟩
  case halfClosedLocal =>
    have h0 : I 3 s.eng := hs
    refine wp_mono ((halfClosedLocal_fr (hp.frame 3 (by decide)) hp.app.newRecv CSt.halfClosedLocal
      CSt.closed).wpGives (C13.step_succ env .halfClosedLocal) h0) ?_ (fun _ _ h => ⟨h.2.trans hst, h.1, fun _ => h.1⟩)
    intro a s' ⟨h1, h2, _⟩
    rcases List.mem_cons.mp h1 with rfl | h1
    · exact h2
    · rw [List.mem_singleton.mp h1]; exact ⟨3, by decide, h2⟩
  case closed => exact hs

/-- Steps of the server. -/
theorem S13.step_phase (hp : SPhases env.toEnv I W mid) (s : Ses SSt) (hs : At I (phase s.st) s.eng) :
    M.wp (S13.step env s.st) s (fun new s' => At I (phase new) s'.eng)
      (fun f s' => s'.st = s.st ∧ Left I W (phase s.st) s'.eng ∧ (f = .transient → At I (phase s.st) s'.eng)) := by
  have hI : ∀ st : SSt, phase st < 4 → ∀ e, At I (phase st) e ↔ I (phase st) e := by
    intro st h e; unfold At; rw [if_pos h]
  have hl : ∀ st e, At I (phase st) e → Left I W (phase st) e := by
    intro st e h
    unfold Left
    split
    · rename_i h2
      exact hp.weak _ h2 _ ((hI st (by omega) e).mp h)
    · exact h
  have plain : ∀ st : SSt, s.st = st → phase st < 4 → Fr (Keeps (I (phase st))) (S13.step env st) →
      (∀ x ∈ succ st, phase x = phase st) →
      M.wp (S13.step env s.st) s (fun new s' => At I (phase new) s'.eng)
        (fun f s' => s'.st = s.st ∧ Left I W (phase s.st) s'.eng ∧ (f = .transient → At I (phase s.st) s'.eng)) := by
    intro st e h4 hf hsu
    subst e
    refine wp_mono (hf.wpGives (S13.step_succ env s.st) ((hI _ h4 _).mp hs)) ?_ ?_
    · intro a s' ⟨h1, h2, _⟩
      rw [hsu a h1]
      exact (hI _ h4 _).mpr h2
    · intro f s' ⟨h1, h2⟩
      have := (hI s.st h4 _).mpr h1
      exact ⟨h2, hl _ _ this, fun _ => this⟩
  have fr : ∀ st : SSt, phase st < 4 → st ≠ .awaitApplicationData → st ≠ .halfClosedLocal → keying st = false →
      Fr (Keeps (I (phase st))) (S13.step env st) := fun st h4 n1 n2 hk =>
    S13.step_fr (hp.frame _ h4) st n1 n2 (fun _ => trivial) (by rw [hk]; exact fun h => nomatch h)
  cases hst : s.st <;> rw [hst] at hs
  case awaitClientHello =>
    rw [← hst]
    exact plain _ hst (by decide) (awaitClientHello_fr (hp.frame 0 (by decide)) hp.retry) (by decide)
  case sendEncryptedExtensions =>
    rw [← hst]; exact plain _ hst (by decide) (fr _ (by decide) (by decide) (by decide) rfl) (by decide)
  case sendCertificateRequest =>
    rw [← hst]; exact plain _ hst (by decide) (fr _ (by decide) (by decide) (by decide) rfl) (by decide)
  case sendCertificate =>
    rw [← hst]; exact plain _ hst (by decide) (fr _ (by decide) (by decide) (by decide) rfl) (by decide)
  case sendCertificateVerify =>
    rw [← hst]; exact plain _ hst (by decide) (fr _ (by decide) (by decide) (by decide) rfl) (by decide)
  case awaitCertificate =>
    rw [← hst]; exact plain _ hst (by decide) (fr _ (by decide) (by decide) (by decide) rfl) (by decide)
  case awaitCertificateVerify =>
    rw [← hst]; exact plain _ hst (by decide) (fr _ (by decide) (by decide) (by decide) rfl) (by decide)
  case sendServerHello =>
    have h0 : I 0 s.eng := hs
    have hw := hp.weak 0 (by decide)
    have hf := hp.frame 0 (by decide)
    unfold step sendServerHello
    simp only [bind_eq, pure_eq]
    rw [wp_bind, wp_get, wp_bind]
    refine wp_orPanic_of (fun random _ => ?_) ⟨hst, hw _ h0, nofun⟩
    split
    · exact ⟨hst, hw _ h0, nofun⟩
    rw [wp_bind, wp_modify, wp_bind, wp_onEng', wp_bind]
    have h1 := hf.flightBegin _ h0
    refine wp_orPanic_of (fun suite _ => ?_) ⟨hst, hw _ h1, nofun⟩
    split
    · exact ⟨hst, hw _ h1, nofun⟩
    rw [wp_bind]
    refine wp_mono (onEng_wp (fun e => hf.handshake e mtServerHello _) h1) ?_
      (fun _ _ h => ⟨h.2.trans hst, hw _ h.1, fun _ => h.1⟩)
    intro _ s2 ⟨h2, e2⟩
    have e2' : s2.st = .sendServerHello := e2.trans hst
    rw [wp_bind]
    refine wp_orFatal_of (fun shared _ => ?_) ⟨e2', hw _ h2, nofun⟩
    rw [wp_bind, wp_modify, wp_bind]
    refine wp_mono (installHandshake_wp shared hp.hs (hw _) h2) ?_
      (fun _ _ h => ⟨h.2.1.trans e2', h.1, fun hf => absurd hf h.2.2⟩)
    intro _ s3 ⟨h3, _⟩
    exact h3
  case sendFinished =>
    have h0 : I 1 s.eng := hs
    have hw := hp.weak 1 (by decide)
    have hf := hp.frame 1 (by decide)
    unfold step sendFinished
    simp only [bind_eq, pure_eq]
    rw [wp_bind, wp_get, wp_bind]
    refine wp_orFatal_of (fun secret _ => ?_) ⟨hst, hw _ h0, nofun⟩
    rw [wp_bind]
    refine wp_mono ((computeVerify_fr hf secret).wp h0) ?_ (fun _ _ h => ⟨h.2.trans hst, hw _ h.1, fun _ => h.1⟩)
    intro v s1 ⟨h1, e1⟩
    rw [wp_bind]
    refine wp_mono (onEng_wp (fun e => hf.handshake e mtFinished v) h1) ?_
      (fun _ _ h => ⟨h.2.trans (e1.trans hst), hw _ h.1, fun _ => h.1⟩)
    intro _ s2 ⟨h2, e2⟩
    have e2' := e2.trans (e1.trans hst)
    rw [wp_bind]
    refine wp_mono (installApplication_wp hp.appKeys (fun x h => hf.exporter _ x h) (hw _) h2) ?_
      (fun _ _ h => ⟨h.2.1.trans e2', h.1, fun hf => absurd hf h.2.2⟩)
    intro _ s3 ⟨h3, e3⟩
    rw [wp_bind, wp_onEng]
    refine wp_mono (hp.enable _ h3) ?_ (fun _ _ h => ⟨e3.trans e2', h.1, h.2⟩)
    intro _ e4 h4
    rw [wp_pure]
    split <;> exact h4
  case awaitFinished =>
    have h0 : I 2 s.eng := hs
    have hf := hp.frame 2 (by decide)
    unfold step awaitFinished
    simp only [bind_eq, pure_eq]
    rw [wp_bind, wp_get, wp_bind]
    refine wp_orFatal_of (fun secret _ => ?_) ⟨hst, h0, nofun⟩
    rw [wp_bind]
    refine wp_mono ((computeVerify_fr hf secret).wp h0) ?_ (fun _ _ h => ⟨h.2.trans hst, h.1, fun _ => h.1⟩)
    intro expected s1 ⟨h1, e1⟩
    rw [wp_bind]
    refine wp_mono ((nextHandshake_fr hf mtFinished).wp h1) ?_
      (fun _ _ h => ⟨h.2.trans (e1.trans hst), h.1, fun _ => h.1⟩)
    intro m s2 ⟨h2, e2⟩
    have e2' := e2.trans (e1.trans hst)
    split
    · exact h2
    · rw [wp_bind]
      refine wp_check_of (fun _ => ?_) ⟨e2', h2, nofun⟩
      rw [wp_bind]
      refine wp_mono (onEng_wp hf.advance h2) ?_ (fun _ _ h => ⟨h.2.trans e2', h.1, fun _ => h.1⟩)
      intro _ s3 ⟨h3, e3⟩
      rw [wp_bind]
      refine wp_mono (onEng_wp hf.ackFinal h3) ?_ (fun _ _ h => ⟨h.2.trans (e3.trans e2'), h.1, fun _ => h.1⟩)
      intro _ s4 ⟨h4, e4⟩
      rw [wp_bind, wp_onEng']
      refine wp_mono (announceConnected_wp hp.release (s := { s4 with eng := flightStop s4.eng }) (hf.flightStop trivial _ h4)) ?_
        (fun _ _ h => ⟨h.2.trans (e4.trans (e3.trans e2')), h.1, fun _ => h.1⟩)
      intro new s5 ⟨hn, h5⟩
      rw [hn]; exact h5
    · exact ⟨e2', h2, nofun⟩
  case awaitApplicationData =>
    have h0 : I 3 s.eng := hs
    have h := awaitApplicationData_fr (hp.frame 3 (by decide)) hp.app SSt.awaitApplicationData s (fun _ _ => trivial)
    have hg := S13.step_succ env .awaitApplicationData s
    refine wp_of ?_ ?_
    · intro a s' he
      have h1 : I 3 s'.eng := by
        have := h.1 h0
        rw [show awaitApplicationData env SSt.awaitApplicationData s = _ from he] at this
        exact this
      have h2 : a ∈ succ .awaitApplicationData := hg a (by rw [he])
      rw [List.mem_singleton.mp h2]
      exact h1
    · intro f s' he
      have h1 := h.1 h0
      have h2 := h.2.2
      rw [show awaitApplicationData env SSt.awaitApplicationData s = _ from he] at h1 h2
      exact ⟨h2.trans hst, h1, fun _ => h1⟩
  case halfClosedLocal =>
    have h0 : I 3 s.eng := hs
    refine wp_mono ((halfClosedLocal_fr (hp.frame 3 (by decide)) hp.app.newRecv SSt.halfClosedLocal
      SSt.closed).wpGives (S13.step_succ env .halfClosedLocal) h0) ?_ (fun _ _ h => ⟨h.2.trans hst, h.1, fun _ => h.1⟩)
    intro a s' ⟨h1, h2, _⟩
    rcases List.mem_cons.mp h1 with rfl | h1
    · exact h2
    · rw [List.mem_singleton.mp h1]; exact ⟨3, by decide, h2⟩
  case closed => exact hs

end steps

/-! ## Calls -/

theorem at_keep {I : Nat → Eng → Prop} {f : Eng → Eng} (h : ∀ p, p < 4 → ∀ e, I p e → I p (f e)) (p : Nat) (e : Eng)
    (he : At I p e) : At I p (f e) := by
  unfold At at *
  split
  · rename_i hp; rw [if_pos hp] at he; exact h p hp e he
  · rename_i hp; rw [if_neg hp] at he
    obtain ⟨q, hq, hi⟩ := he
    exact ⟨q, hq, h q hq e hi⟩

theorem at_any {I : Nat → Eng → Prop} {p : Nat} {e : Eng} (he : At I p e) : At I 4 e := by
  unfold At at *
  split at he
  · rename_i hp; exact ⟨p, hp, he⟩
  · exact he

theorem stepOk_of {R : Role} {env : PEnv} {keying : R.St → Bool} {I W : Nat → Eng → Prop} {ph : R.St → Nat} (hp : Phases env.toEnv I W)
    (ho : RoleOk R env keying) (ha : ph R.app = 3) (hh : ph R.halfClosed = 3) (hc : ph R.closed = 4)
    (hst : ∀ s : Ses R.St, At I (ph s.st) s.eng → wp (R.step env s.st) s (fun new s' => At I (ph new) s'.eng)
      (fun f s' => s'.st = s.st ∧ Left I W (ph s.st) s'.eng ∧ (f = .transient → At I (ph s.st) s'.eng))) :
    StepOk R env (fun st => At I (ph st)) (fun st => Left I W (ph st)) where
  weak st e h := by
    show Left I W (ph st) e
    unfold Left
    split
    · rename_i h2
      unfold At at h
      rw [if_pos (by omega)] at h
      exact hp.weak _ h2 _ h
    · exact h
  step := hst
  keep := ho.keep
  packet st e p h := at_keep (fun q hq e => (hp.api q hq).packet e p) _ e h
  timeout st e n h := at_keep (fun q hq e => (hp.api q hq).timeout e n) _ e h
  tick st e h := at_keep (fun q hq e => (hp.frame q hq).tick e) _ e h
  data e d h := by
    show At I (ph R.app) _
    rw [ha] at h ⊢
    exact hp.app.data e d trivial h
  alert e h := by
    show wp _ e (fun _ e' => At I (ph R.halfClosed) (cancelFlights e')) (fun _ e' => At I (ph R.app) e')
    rw [ha] at h ⊢
    rw [hh]
    have h1 := (hp.api 3 (by decide)).alert e h
    refine wp_of ?_ ?_
    · intro a e' he
      rw [he] at h1
      exact (hp.api 3 (by decide)).cancel _ h1
    · intro f e' he
      rw [he] at h1
      exact h1
  abort st e h := by
    show At I (ph R.closed) _
    rw [hc]
    exact at_any (at_keep (fun q hq e => (hp.api q hq).abort e) _ e h)
  poll st e b n h := at_keep (fun q hq e => hp.poll q hq e b n) _ e h

theorem C13.stepOk {env : PEnv} {I W : Nat → Eng → Prop} {mid : Eng → Prop} (hp : CPhases env.toEnv I W mid) :
    StepOk C13.role env (fun st => At I (C13.phase st)) (fun st => Left I W (C13.phase st)) :=
  stepOk_of (R := C13.role) (ph := C13.phase) hp.toPhases (C13.roleOk env) rfl rfl rfl (C13.step_phase hp)

theorem S13.stepOk {env : PEnv} {I W : Nat → Eng → Prop} {mid : Eng → Prop} (hp : SPhases env.toEnv I W mid) :
    StepOk S13.role env (fun st => At I (S13.phase st)) (fun st => Left I W (S13.phase st)) :=
  stepOk_of (R := S13.role) (ph := S13.phase) hp.toPhases (S13.roleOk env) rfl rfl rfl (S13.step_phase hp)

section calls
variable {R : Role} {env : PEnv} {I J : R.St → Eng → Prop}

theorem progress_phase (h : StepOk R env I J) (n : Nat) (s : Ses R.St) (hs : I s.st s.eng) :
    wp (progress R env n) s (fun _ s' => I s'.st s'.eng)
      (fun f s' => J s'.st s'.eng ∧ (f = .transient → I s'.st s'.eng)) := by
  induction n generalizing s with
  | zero => exact ⟨h.weak _ _ hs, nofun⟩
  | succ n ih =>
    unfold progress
    simp only [bind_eq, pure_eq]
    rw [wp_bind, wp_get, wp_bind]
    have hk := wp_and (h.step s hs) (to_wp (m := R.step env s.st) (R := fun s' : Ses R.St => s'.st = s.st) (h.keep s))
    refine wp_mono hk ?_ ?_
    · intro new s' ⟨hn, hst⟩
      split
      · rename_i he
        show I s'.st s'.eng
        rw [hst, he]; exact hn
      · rw [wp_bind, wp_modify]
        exact ih { s' with st := new } hn
    · intro f s' ⟨⟨h1, h2, h3⟩, _⟩
      rw [h1]; exact ⟨h2, h3⟩

/-- After a call: `I`, or `J` and the call failed. -/
def After (I J : R.St → Eng → Prop) (r : Ret) (s : Ses R.St) : Prop :=
  I s.st s.eng ∨ J s.st s.eng ∧ r ≠ .res .ok ∧ ∀ o, r ≠ .out o

theorem after_of {α : Type} {m : P R.St α} {s : Ses R.St} (h : wp m s (fun _ s' => I s'.st s'.eng)
    (fun f s' => J s'.st s'.eng ∧ (f = .transient → I s'.st s'.eng))) :
    After I J (.res (E12.toApi (m s).1)) (m s).2 := by
  unfold wp at h
  split at h
  · rename_i he; rw [he]; exact .inl h
  · rename_i f s' he
    rw [he]
    cases f with
    | transient => exact .inl (h.2 rfl)
    | fatal e => exact .inr ⟨h.1, nofun, nofun⟩
    | panic => exact .inr ⟨h.1, nofun, nofun⟩
    | diverge => exact .inr ⟨h.1, nofun, nofun⟩

theorem call_phase (h : StepOk R env I J) (s : Ses R.St) (hs : I s.st s.eng) (c : Call) :
    After I J (call R env s c).1 (call R env s c).2 := by
  cases c with
  | packet p =>
    refine after_of (m := handlePacketM R env p) ?_
    have key : ∀ s : Ses R.St, I s.st s.eng → wp (M.bind (onEng (parsePacket env.toEnv p)) (fun _ =>
      M.bind (progress R env progressFuel) fun _ => M.modify fun s =>
        if s.autoMode && !R.first s.st then { s with retained := [], autoMode := false } else s)) s
        (fun _ s' => I s'.st s'.eng) (fun f s' => J s'.st s'.eng ∧ (f = .transient → I s'.st s'.eng)) := by
      intro s hs
      rw [wp_bind, wp_onEng]
      have hp := h.packet s.st s.eng p hs
      refine wp_of ?_ ?_
      · intro a e' he
        rw [he] at hp
        rw [wp_bind]
        refine wp_mono (progress_phase h progressFuel { s with eng := e' } hp) ?_ (fun _ _ h => h)
        intro _ s' h'
        rw [wp_modify]
        split <;> exact h'
      · intro f e' he
        rw [he] at hp
        exact ⟨h.weak _ _ hp, fun _ => hp⟩
    unfold handlePacketM
    simp only [bind_eq]
    rw [wp_bind, wp_get]
    split
    · split
      · exact ⟨h.weak _ _ hs, nofun⟩
      · exact key { s with retained := s.retained ++ [p] } hs
    · exact key s hs
  | timeout n =>
    refine after_of (m := handleTimeoutM R env n) ?_
    unfold handleTimeoutM
    simp only [bind_eq]
    rw [wp_bind, wp_modify, wp_bind, wp_onEng]
    have h1 : I (noteTime R env n s).st (noteTime R env n s).eng := by
      unfold noteTime
      split
      · exact hs
      · exact h.tick _ _ hs
    generalize noteTime R env n s = s1 at h1
    have hp := h.timeout s1.st s1.eng n h1
    refine wp_of ?_ ?_
    · intro a e' he
      rw [he] at hp
      exact progress_phase h progressFuel { s1 with eng := e' } hp
    · intro f e' he
      rw [he] at hp
      exact ⟨h.weak _ _ hp, fun _ => hp⟩
  | send d =>
    refine after_of (m := sendM R env d) ?_
    unfold sendM
    simp only [bind_eq]
    rw [wp_bind, wp_get]
    split
    · exact ⟨h.weak _ _ hs, nofun⟩
    · split
      · exact hs
      · rename_i ha
        have ha : s.st = R.app := Decidable.not_not.mp ha
        have hd := h.data s.eng d (ha ▸ hs)
        unfold sendApp
        rw [wp_onEng]
        refine wp_of ?_ ?_
        · intro a e' he
          rw [he] at hd
          show I s.st e'
          rw [ha]; exact hd
        · intro f e' he
          rw [he] at hd
          have : I s.st e' := by rw [ha]; exact hd
          exact ⟨h.weak _ _ this, fun _ => this⟩
  | close =>
    refine after_of (m := closeM R env) ?_
    unfold closeM
    simp only [bind_eq, pure_eq]
    rw [wp_bind, wp_get]
    split
    · exact hs
    · split
      · exact h.abort _ _ hs
      · rename_i ha
        have ha : s.st = R.app := Decidable.not_not.mp ha
        rw [wp_bind, wp_onEng]
        refine wp_mono (h.alert s.eng (ha ▸ hs)) ?_ ?_
        · intro _ e' he
          exact he
        · intro f e' he
          have : I s.st e' := by rw [ha]; exact he
          exact ⟨h.weak _ _ this, fun _ => this⟩
  | poll n =>
    refine .inl ?_
    show I (pollM R n s).2.st (pollM R n s).2.eng
    unfold pollM
    split
    · exact hs
    · exact h.poll _ _ _ _ hs

/-- The caller makes no further call after one that failed having set up keys that its state does not know
of. -/
def Careful (R : Role) (env : PEnv) (s : Ses R.St) : List Call → Prop
  | [] => True
  | c :: cs =>
    (cs = [] ∨ (call R env s c).1 = .res .ok ∨ (∃ o, (call R env s c).1 = .out o) ∨
      R.ahead (call R env s c).2.st (call R env s c).2.eng = false) ∧
    Careful R env (call R env s c).2 cs

theorem run_phase (h : StepOk R env I J) (hup : ∀ st e, R.ahead st e = false → J st e → I st e)
    (cs : List Call) (s : Ses R.St)
    (hs : I s.st s.eng) (hc : Careful R env s cs) :
    J (run R env s cs).2.st (run R env s cs).2.eng := by
  induction cs generalizing s with
  | nil => exact h.weak _ _ hs
  | cons c cs ih =>
    have ha := call_phase h s hs c
    rw [run_snd]
    split
    · rcases ha with ha | ha
      · exact h.weak _ _ ha
      · exact ha.1
    · rcases ha with ha | ha
      · exact ih _ ha hc.2
      · rcases hc.1 with hn | ho | ⟨o, ho⟩ | hu
        · subst hn; exact ha.1
        · exact absurd ho ha.2.1
        · exact absurd ho (ha.2.2 o)
        · exact ih _ (hup _ _ hu ha.1) hc.2

/-- The same without any care by the caller, when nothing is lost by failing. -/
theorem run_phase' (h : StepOk R env I J) (hj : ∀ st e, J st e → I st e) (cs : List Call)
    (s : Ses R.St) (hs : I s.st s.eng) : I (run R env s cs).2.st (run R env s cs).2.eng := by
  induction cs generalizing s with
  | nil => exact hs
  | cons c cs ih =>
    have ha : I (call R env s c).2.st (call R env s c).2.eng := by
      rcases call_phase h s hs c with ha | ha
      · exact ha
      · exact hj _ _ ha.1
    rw [run_snd]
    split
    · exact ha
    · exact ih _ ha

end calls

/-! ## Invariants of the receive side -/

/-- Invariants that the small steps without new keys keep. -/
theorem phases_rx {env : Env} {P : Nat → Eng → Hand → Prop} {W : Nat → Eng → Prop}
    (hk : ∀ p, p < 4 → ∀ (poll : Bool) (s s' : Eng) (a a' : Hand), RStep env false poll (s, a) (s', a') →
      P p s a → P p s' a')
    (hr : ∀ e, P 0 e .idle → P 0 (resetForHelloRetry e) .idle)
    (hw : ∀ p, p < 2 → ∀ e, P p e .idle → W p e) : Phases env (fun p e => P p e .idle) W := by
  have key : ∀ p, p < 4 → ∀ poll e e', RMove env false poll e e' → Keeps (fun e => P p e .idle) e e' :=
    fun p hp poll e e' g h => RSteps.keeps (P := P p) (hk p hp poll) g h
  refine ⟨fun p hp => ?_, fun p hp => ?_, fun p hp e b n => ?_, ?_, hr, hw⟩
  · have f := rx_frame env false
    exact ⟨fun _ h => h, fun _ _ _ h1 h2 h => h2 (h1 h), fun e t b => key p hp _ _ _ (f.handshake e t b),
      fun e a i t => key p hp _ _ _ (f.next e a i t), fun e => key p hp _ _ _ (f.advance e),
      fun e => key p hp _ _ _ (f.flightBegin e), fun _ e => key p hp _ _ _ (f.flightStop trivial e),
      fun e => key p hp _ _ _ (f.tick e), fun e c h => key p hp _ _ _ (f.suite e c h),
      fun e x => key p hp _ _ _ (f.exporter e x), fun e n => key p hp _ _ _ (f.rollback e n),
      fun e n => key p hp _ _ _ (f.replace e n), fun e => key p hp _ _ _ (f.ackFinal e)⟩
  · have f := rx_apiFrame env false false
    exact ⟨fun e x => key p hp _ _ _ (f.packet e x), fun e n => key p hp _ _ _ (f.timeout e n),
      fun e => key p hp _ _ _ (f.alert e), fun e => key p hp _ _ _ (f.cancel e), fun e => key p hp _ _ _ (f.abort e)⟩
  · exact key p hp _ _ _ (pollOutput_rx b n e)
  · have f := rx_appFrame env false false
    exact ⟨fun e d hd => key 3 (by decide) _ _ _ (f.data e d hd), fun e => key 3 (by decide) _ _ _ (f.asked e),
      fun e => key 3 (by decide) _ _ _ (f.keyUpdate e), fun e a b => key 3 (by decide) _ _ _ (f.auto e a b),
      fun e => key 3 (by decide) _ _ _ (f.newRecv e),
      fun e => key 3 (by decide) _ _ _ (f.ack e)⟩

/-! ## Installing keys -/

theorem wp_installHandshakeKeys {env : Env} {a b : Bytes} {s : Eng} {Q : Unit → Eng → Prop} {F : Fault → Eng → Prop}
    (h1 : ∀ suite ks kr, s.suite = some suite → env.epochKeys suite (if s.isClient then a else b) = some ks →
      env.epochKeys suite (if s.isClient then b else a) = some kr →
      Q () { s with hsSend := some ks, hsRecv := some kr, hsSeq := 0 })
    (h2 : ∀ f, f ≠ .transient → F f s)
    (h3 : ∀ f k, f ≠ .transient → F f { s with hsSend := some k }) : wp (installHandshakeKeys env a b) s Q F := by
  unfold installHandshakeKeys
  rw [wp_bind, wp_get, wp_bind]
  refine wp_deriveEpochKeys (fun suite ks hs hk => ?_) (h2 _ nofun) (h2 _ nofun)
  rw [wp_bind, wp_modify, wp_bind]
  refine wp_deriveEpochKeys (fun suite' kr hs' hr => ?_) (h3 _ _ nofun) (h3 _ _ nofun)
  have : suite' = suite := Option.some.inj (hs'.symm.trans hs)
  subst this
  exact h1 suite' ks kr hs hk hr

theorem wp_installApplicationKeys {env : Env} {a b : Bytes} {s : Eng} {Q : Unit → Eng → Prop} {F : Fault → Eng → Prop}
    (h1 : ∀ suite ks kr, s.suite = some suite → env.epochKeys suite (if s.isClient then a else b) = some ks →
      env.epochKeys suite (if s.isClient then b else a) = some kr → s.appRecv.length < 4 →
      Q () { s with appSend := some ks, appEpoch := 3, appSeq := 0,
                    appRecv := s.appRecv ++ [{ epoch := 3, keys := kr, expected := 0, replay := .new }] })
    (h2 : ∀ f, f ≠ .transient → F f s)
    (h3 : ∀ f k, f ≠ .transient → F f { s with appSend := some k }) : wp (installApplicationKeys env a b) s Q F := by
  unfold installApplicationKeys
  rw [wp_bind, wp_get, wp_bind]
  refine wp_deriveEpochKeys (fun suite ks hs hk => ?_) (h2 _ nofun) (h2 _ nofun)
  rw [wp_bind, wp_modify, wp_bind]
  refine wp_deriveEpochKeys (fun suite' kr hs' hr => ?_) (h3 _ _ nofun) (h3 _ _ nofun)
  have : suite' = suite := Option.some.inj (hs'.symm.trans hs)
  subst this
  rw [wp_bind, wp_get]
  split
  · exact h3 _ _ nofun
  · rename_i g
    exact h1 suite' ks kr hs hk hr (by simpa using g)

/-! ## Sessions -/

/-- An invariant by phases that failures do not break holds throughout. -/
theorem Start.phase {env : PEnv} {cfg : Cfg} {R : Role} {s0 : Ses R.St} (h : Start env cfg R s0)
    {I J W V : Nat → Eng → Prop} {m n : Eng → Prop} {Q : Eng → Prop}
    (hc : CPhases env.toEnv I W m) (hs : SPhases env.toEnv J V n)
    (hw : ∀ p, p < 2 → ∀ e, W p e → I p e) (hv : ∀ p, p < 2 → ∀ e, V p e → J p e)
    (hi : ∀ p e, I p e → Q e) (hj : ∀ p e, J p e → Q e)
    (h0 : I 0 s0.eng) (h0' : J 0 s0.eng) (cs : List Call) : Q (run R env s0 cs).2.eng := by
  have weak : ∀ {I W : Nat → Eng → Prop}, (∀ p, p < 2 → ∀ e, W p e → I p e) → ∀ p e, Left I W p e → At I p e := by
    intro I W hw p e h
    unfold Left at h
    split at h
    · unfold At; rw [if_pos (by omega)]; exact hw _ ‹_› _ h
    · exact h
  have out : ∀ {I : Nat → Eng → Prop}, (∀ p e, I p e → Q e) → ∀ p e, At I p e → Q e := by
    intro I hi p e h
    unfold At at h
    split at h
    · exact hi _ _ h
    · obtain ⟨q, _, h⟩ := h; exact hi _ _ h
  cases h with
  | client now => exact out hi _ _ (run_phase' (C13.stepOk hc) (fun st e => weak hw _ e) cs _ h0)
  | hybrid a b c d => exact out hi _ _ (run_phase' (C13.stepOk hc) (fun st e => weak hw _ e) cs _ h0)
  | server now auto => exact out hj _ _ (run_phase' (S13.stepOk hs) (fun st e => weak hv _ e) cs _ h0')

/-- The same with the phase of the state. -/
theorem Start.phases {env : PEnv} {cfg : Cfg} {R : Role} {s0 : Ses R.St} (h : Start env cfg R s0)
    {I J W V : Nat → Eng → Prop} {m n : Eng → Prop}
    (hc : CPhases env.toEnv I W m) (hs : SPhases env.toEnv J V n)
    (hw : ∀ p, p < 2 → ∀ e, W p e → I p e) (hv : ∀ p, p < 2 → ∀ e, V p e → J p e)
    (h0 : I 0 s0.eng) (h0' : J 0 s0.eng) (cs : List Call) :
    let s := (run R env s0 cs).2
    ∃ p, (s.st = R.app → p = 3) ∧ (R.first s.st = true → p = 0) ∧ (s.st = R.halfClosed → p = 3) ∧
      (At I p s.eng ∨ At J p s.eng) := by
  intro s
  have weak : ∀ {I W : Nat → Eng → Prop}, (∀ p, p < 2 → ∀ e, W p e → I p e) → ∀ p e, Left I W p e → At I p e := by
    intro I W hw p e h
    unfold Left at h
    split at h
    · unfold At; rw [if_pos (by omega)]; exact hw _ ‹_› _ h
    · exact h
  cases h with
  | client now =>
    refine ⟨C13.phase s.st, ?_, nofun, ?_, .inl (run_phase' (C13.stepOk hc) (fun st e => weak hw _ e) cs _ h0)⟩
    · intro g; rw [g]; rfl
    · intro g; rw [g]; rfl
  | hybrid a b c d =>
    refine ⟨C13.phase s.st, ?_, nofun, ?_, .inl (run_phase' (C13.stepOk hc) (fun st e => weak hw _ e) cs _ h0)⟩
    · intro g; rw [g]; rfl
    · intro g; rw [g]; rfl
  | server now auto =>
    refine ⟨S13.phase s.st, ?_, ?_, ?_, .inr (run_phase' (S13.stepOk hs) (fun st e => weak hv _ e) cs _ h0')⟩
    · intro g; rw [g]; rfl
    · intro g
      have key : ∀ st : SSt, (st == SSt.awaitClientHello) = true → S13.phase st = 0 := by
        intro st; cases st <;> decide
      exact key _ g
    · intro g; rw [g]; rfl

/-- `Role.ahead` by phases; `n` is the phase in which the peer's records are first decrypted. -/
def aheadOf (n p : Nat) (e : Eng) : Bool :=
  (if p = 0 then e.hsSend.isSome else e.appSend.isSome) || (decide (p + 1 = n) && e.peerEnc)

theorem C13.ahead_phase {st : CSt} {e : Eng} (h : C13.ahead st e = false) (hp : C13.phase st < 2) :
    aheadOf 1 (C13.phase st) e = false := by
  cases st <;> first | exact absurd hp (by decide) | simpa [C13.ahead, aheadOf, C13.phase] using h

theorem S13.ahead_phase {st : SSt} {e : Eng} (h : S13.ahead st e = false) (hp : S13.phase st < 2) :
    aheadOf 2 (S13.phase st) e = false := by
  cases st <;> first | exact absurd hp (by decide) | simpa [S13.ahead, aheadOf, S13.phase] using h

/-- An invariant by phases holds throughout for a careful caller. -/
theorem Start.carefully {env : PEnv} {cfg : Cfg} {R : Role} {s0 : Ses R.St} (h : Start env cfg R s0)
    {I J W V : Nat → Eng → Prop} {m n : Eng → Prop} {Q : Eng → Prop}
    (hc : CPhases env.toEnv I W m) (hs : SPhases env.toEnv J V n)
    (hw : ∀ p, p < 2 → ∀ e, W p e → Q e) (hv : ∀ p, p < 2 → ∀ e, V p e → Q e)
    (uw : ∀ p, p < 2 → ∀ e, aheadOf 1 p e = false → W p e → I p e)
    (uv : ∀ p, p < 2 → ∀ e, aheadOf 2 p e = false → V p e → J p e)
    (hi : ∀ p e, I p e → Q e) (hj : ∀ p e, J p e → Q e)
    (h0 : I 0 s0.eng) (h0' : J 0 s0.eng) (cs : List Call) (ha : Careful R env s0 cs) : Q (run R env s0 cs).2.eng := by
  have up : ∀ {I W : Nat → Eng → Prop} {p : Nat} {e : Eng}, (p < 2 → W p e → I p e) → Left I W p e → At I p e := by
    intro I W p e hu h
    unfold Left at h
    split at h
    · unfold At; rw [if_pos (by omega)]; exact hu ‹_› h
    · exact h
  have out : ∀ {I W : Nat → Eng → Prop}, (∀ p, p < 2 → ∀ e, W p e → Q e) → (∀ p e, I p e → Q e) →
      ∀ p e, Left I W p e → Q e := by
    intro I W hw hi p e h
    unfold Left At at h
    split at h
    · exact hw _ ‹_› _ h
    · split at h
      · exact hi _ _ h
      · obtain ⟨q, _, h⟩ := h; exact hi _ _ h
  cases h with
  | client now =>
    exact out hw hi _ _ (run_phase (C13.stepOk hc)
      (fun st e g => up fun hp => uw _ hp e (C13.ahead_phase g hp)) cs _ h0 ha)
  | hybrid a b c d =>
    exact out hw hi _ _ (run_phase (C13.stepOk hc)
      (fun st e g => up fun hp => uw _ hp e (C13.ahead_phase g hp)) cs _ h0 ha)
  | server now auto =>
    exact out hv hj _ _ (run_phase (S13.stepOk hs)
      (fun st e g => up fun hp => uv _ hp e (S13.ahead_phase g hp)) cs _ h0' ha)

end Verif.E13

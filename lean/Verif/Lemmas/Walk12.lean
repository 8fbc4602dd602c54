import Verif.Lemmas.Session12
/-!
# Executions of a DTLS 1.2 session

`Stable` collects what an invariant of a session must survive; `Stable.run` lifts it to every
execution. `walk` uses it to show that every execution is a sequence of engine steps.
-/
namespace Verif.E12
open Verif Wire Window Timer Aead M

/-- `I` survives everything a session does, where application data satisfies `ok`. -/
structure Stable (R : Role) (env : PEnv) (ok : Bytes → Prop) (I : Ses R.St → Prop) : Prop where
  packet : ∀ s p, I s → I { s with eng := (parsePacket env.toEnv p s.eng).2 }
  note : ∀ s n, I s → I (noteTime R env n s)
  timeout : ∀ s n, I s → I { s with eng := (handleTimeout env.toEnv n s.eng).2 }
  step : ∀ s, I s → wp (R.step env s.st) s (fun new s' => s'.st = s.st ∧ I { s' with st := new })
    (fun _ s' => I s')
  send : ∀ s d, ok d → I s → I (sendM R env d s).2
  close : ∀ s, I s → I (closeM R env s).2
  poll : ∀ s n, I s → I (pollM R n s).2

namespace Stable
variable {R : Role} {env : PEnv} {ok : Bytes → Prop} {I : Ses R.St → Prop}

theorem progress (h : Stable R env ok I) (fuel : Nat) (s : Ses R.St) (hs : I s) :
    I (progress R env fuel s).2 := by
  induction fuel generalizing s with
  | zero => exact hs
  | succ n ih =>
    apply of_wp (m := E12.progress R env (n + 1))
    unfold E12.progress
    simp only [bind_eq, pure_eq, wp_bind, wp_get]
    refine wp_mono (h.step s hs) ?_ (fun _ _ h => h)
    rintro new s' ⟨hst, hI⟩
    split
    · rename_i he
      subst he
      rw [wp_pure]
      have : s' = { s' with st := s.st } := by rw [← hst]
      rw [this]
      exact hI
    · simp only [wp_bind, wp_modify]
      rw [wp_state]
      exact ih _ hI

theorem call (h : Stable R env ok I) (s : Ses R.St) (c : Call) (hc : ∀ d, c = .send d → ok d)
    (hs : I s) : I (call R env s c).2 := by
  cases c with
  | packet p =>
    show I (handlePacketM R env p s).2
    apply of_wp (m := handlePacketM R env p)
    unfold handlePacketM
    simp only [bind_eq, wp_bind, wp_onEng]
    refine wp_mono (wp_state (R := fun e => I { s with eng := e }) |>.mpr (h.packet s p hs)) ?_ ?_
    · intro _ e he
      rw [wp_state]
      exact h.progress _ _ he
    · intro _ e he
      exact he
  | timeout n =>
    show I (handleTimeoutM R env n s).2
    apply of_wp (m := handleTimeoutM R env n)
    unfold handleTimeoutM
    simp only [bind_eq, wp_bind, wp_onEng, wp_modify]
    refine wp_mono (wp_state (R := fun e => I { noteTime R env n s with eng := e }) |>.mpr
      (h.timeout _ n (h.note s n hs))) ?_ ?_
    · intro _ e he
      rw [wp_state]
      exact h.progress _ _ he
    · intro _ e he
      exact he
  | send d => exact h.send s d (hc d rfl) hs
  | close => exact h.close s hs
  | poll n => exact h.poll s n hs

theorem run (h : Stable R env ok I) (s : Ses R.St) (cs : List Call) (hc : ∀ d, .send d ∈ cs → ok d)
    (hs : I s) : I (run R env s cs).2 := by
  induction cs generalizing s with
  | nil => exact hs
  | cons c cs ih =>
    have h1 := h.call s c (fun d hd => hc d (by simp [hd])) hs
    unfold E12.run
    simp only
    split
    · exact h1
    · exact ih _ (fun d hd => hc d (by simp [hd])) h1

end Stable

/-! ## Every execution is a sequence of engine steps -/

section walk
variable {St : Type} {env : PEnv} {ok : Bytes → Prop}

/-- The engine came here by steps, what is queued is allowed, and `K` holds of state, keys and
premaster secret. -/
structure Walk (env : PEnv) (ok : Bytes → Prop) (K : St → Option Keys → Option Bytes → Prop)
    (e0 : Eng) (s : Ses St) : Prop where
  steps : Steps env.toEnv ok e0 s.eng
  queued : QOk ok s
  keys : K s.st s.eng.keys s.pms

theorem Steps.core {env : Env} {a b c : Eng} (h : Steps env ok a b) (g : Star (Core env ok) b c) :
    Steps env ok a c := h.trans (g.mono fun _ _ h => .one (.core h))

/-- The step function of a role keeps `Walk`. -/
structure KeyRule (R : Role) (env : PEnv) (ok : Bytes → Prop)
    (K : R.St → Option Keys → Option Bytes → Prop) : Prop where
  alert : ok [1, 0]
  closed : ∀ k p, K R.closed k p
  app : ∀ k p, K R.app k p → k ≠ none
  step : ∀ s e0, Walk env ok K e0 s → wp (R.step env s.st) s
    (fun new s' => s'.st = s.st ∧ Walk env ok K e0 { s' with st := new }) (fun _ s' => Walk env ok K e0 s')

/-- A core step changes none of the keys. -/
theorem Walk.core {K : St → Option Keys → Option Bytes → Prop} {e0 : Eng} {s : Ses St}
    (h : Walk env ok K e0 s) {e : Eng} (g : Star (Core env.toEnv ok) s.eng e) :
    Walk env ok K e0 { s with eng := e } :=
  ⟨h.steps.core g, h.queued, (g.keep.keys) ▸ h.keys⟩

theorem KeyRule.stable {R : Role} {K : R.St → Option Keys → Option Bytes → Prop}
    (k : KeyRule R env ok K) (e0 : Eng) : Stable R env ok (Walk env ok K e0) where
  packet s p h := h.core (.one (.packet _ _))
  note s n h := by
    unfold noteTime
    split
    · exact ⟨h.steps, h.queued, h.keys⟩
    · exact ⟨h.steps.core (.one (.tick _)), h.queued, h.keys⟩
  timeout s n h := h.core (.one (.timeout _ _))
  step s h := k.step s e0 h
  send s d hd h := by
    apply of_wp (m := sendM R env d)
    unfold sendM
    simp only [bind_eq, wp_bind, wp_get]
    split
    · exact h
    · split
      · rw [wp_modify]
        refine ⟨h.steps, ?_, h.keys⟩
        intro d' hd'
        rcases List.mem_append.mp hd' with h' | h'
        · exact h.queued d' h'
        · simp at h'; subst h'; exact hd
      · rename_i hc ha
        have ha : s.st = R.app := by simpa using ha
        have hk := k.app _ _ (ha ▸ h.keys)
        rw [wp_state]
        exact h.core (.one (.record _ _ _ _ _ _ hd fun _ => hk))
  close s h := by
    apply of_wp (m := closeM R env)
    unfold closeM
    simp only [bind_eq, wp_bind, wp_get]
    split
    · exact h
    · split
      · simp only [wp_bind, wp_onEng', wp_modify]
        exact ⟨h.steps.core (.one (.abort _)), h.queued, k.closed _ _⟩
      · rename_i hc ha
        have ha : s.st = R.app := by simpa using ha
        have hk := k.app _ _ (ha ▸ h.keys)
        simp only [wp_bind]
        have := h.core (.one (.record s.eng ctAlert 1 false false _ k.alert fun _ => hk))
        refine wp_mono (wp_state (R := fun s' => Walk env ok K e0 s') |>.mpr this) ?_ ?_
        · intro _ s' h'
          exact ⟨h'.steps, h'.queued, k.closed _ _⟩
        · intro _ s' h'
          exact h'
  poll s n h := by
    unfold pollM
    split
    · exact ⟨h.steps, h.queued, h.keys⟩
    · exact h.core (.one (.poll _ _ _))

/-- A calm step that stays among the late states. -/
theorem Walk.late {K : St → Option Keys → Option Bytes → Prop} {e0 : Eng} {s : Ses St}
    (h : Walk env ok K e0 s) {m : P St St} (hm : Calm env ok True m) {late : St → Prop}
    (hr : Rets late m) (hs : late s.st) (hk : s.eng.keys ≠ none)
    (hK : ∀ st k p, late st → k ≠ none → K st k p) :
    wp m s (fun new s' => s'.st = s.st ∧ Walk env ok K e0 { s' with st := new })
      (fun _ s' => Walk env ok K e0 s') := by
  obtain ⟨h1, h2, h3⟩ := hm s h.queued fun _ => hk
  have h4 := h1.keep.keys
  apply wp_of
  · intro a s' he
    have := hr _ _ _ he
    simp only [he] at h1 h2 h3 h4
    exact ⟨h3, h.steps.core h1, h2, hK _ _ _ this (by rw [h4]; exact hk)⟩
  · intro f s' he
    simp only [he] at h1 h2 h3 h4
    exact ⟨h.steps.core h1, h2, hK _ _ _ (h3 ▸ hs) (by rw [h4]; exact hk)⟩

/-- The step of the application data state. -/
theorem Walk.app {K : St → Option Keys → Option Bytes → Prop} {e0 : Eng} {s : Ses St} {cl : St}
    (h : Walk env ok K e0 s) {m : P St St} (hm : Calm env ok True m)
    (hr : Rets (fun x => x = s.st ∨ x = cl) m) (hk : s.eng.keys ≠ none)
    (h1 : ∀ p, K s.st s.eng.keys p) (h2 : ∀ k p, K cl k p) :
    wp m s (fun new s' => s'.st = s.st ∧ Walk env ok K e0 { s' with st := new })
      (fun _ s' => Walk env ok K e0 s') := by
  obtain ⟨g1, g2, g3⟩ := hm s h.queued fun _ => hk
  have g4 := g1.keep.keys
  apply wp_of
  · intro a s' he
    have := hr _ _ _ he
    simp only [he] at g1 g2 g3 g4
    refine ⟨g3, h.steps.core g1, g2, ?_⟩
    rcases this with rfl | rfl
    · rw [g4]; exact h1 _
    · exact h2 _ _
  · intro f s' he
    simp only [he] at g1 g2 g3 g4
    exact ⟨h.steps.core g1, g2, by rw [g3, g4]; exact h1 _⟩

end walk

/-! ### Deriving keys -/

section derive
variable {St : Type} {env : PEnv} {ok : Bytes → Prop}

theorem deriveMaster_wp (suite : Nat) (hash cr sr : Bytes) (s : Ses St) (hk : s.eng.keys = none)
    (hs : s.eng.suite = some suite) : wp (deriveMaster env suite hash cr sr) s
      (fun _ s' => Steps env.toEnv ok s.eng s'.eng ∧ s'.queued = s.queued ∧ s'.st = s.st ∧
        s'.pms = none ∧ s'.eng.keys ≠ none)
      (fun _ s' => Steps env.toEnv ok s.eng s'.eng ∧ s'.queued = s.queued ∧ s'.st = s.st ∧
        s'.eng.keys = none) := by
  unfold deriveMaster
  rw [bind_eq, wp_bind, wp_get, bind_eq, wp_bind, wp_orFatal]
  have h0 : Steps env.toEnv ok s.eng s.eng := .refl _
  split
  · rw [bind_eq, wp_bind, wp_orFatal]
    split
    · rename_i m _
      rw [bind_eq, wp_bind, wp_modify, bind_eq, wp_bind, wp_orFatal]
      have h1 : ∀ m, Steps env.toEnv ok s.eng { s.eng with master := some m } := fun m =>
        .one (.core (.master _ m))
      split
      · rename_i hd
        rw [wp_modify]
        exact ⟨(h1 _).trans (.one (.keys _ _ hk ⟨_, _, _, _, hs, hd⟩)), rfl, rfl, rfl, nofun⟩
      · exact ⟨h1 _, rfl, rfl, hk⟩
    · exact ⟨h0, rfl, rfl, hk⟩
  · exact ⟨h0, rfl, rfl, hk⟩

theorem deriveMaster_none (suite : Nat) (hash cr sr : Bytes) (s : Ses St) (hp : s.pms = none) :
    wp (deriveMaster env suite hash cr sr) s (fun _ _ => False) (fun _ s' => s' = s) := by
  unfold deriveMaster
  simp only [bind_eq, wp_bind, wp_get, wp_orFatal, hp]

/-- An early step with keys unset. -/
theorem Walk.early {K : St → Option Keys → Option Bytes → Prop} {e0 : Eng} {s : Ses St}
    (h : Walk env ok K e0 s) {m : P St St} (hm : Early env ok m) {early : St → Prop}
    (hr : Rets early m) (hs : early s.st) (hk : s.eng.keys = none)
    (hK : ∀ st p, early st → K st none p) :
    wp m s (fun new s' => s'.st = s.st ∧ Walk env ok K e0 { s' with st := new })
      (fun _ s' => Walk env ok K e0 s') := by
  obtain ⟨h1, h2, h3, h4⟩ := hm s h.queued hk
  apply wp_of
  · intro a s' he
    have hb := hr _ _ _ he
    simp only [he] at h1 h2 h3 h4
    exact ⟨h3, h.steps.trans h1, h2, by simpa [h4] using hK _ _ hb⟩
  · intro f s' he
    simp only [he] at h1 h2 h3 h4
    exact ⟨h.steps.trans h1, h2, by simpa [h4] using hK _ _ (h3 ▸ hs)⟩

end derive

section rets
variable {St : Type} {env : PEnv} {S : St → Prop}

theorem awaitChangeCipherSpec_rets {a b : St} (ha : S a) (hb : S b) :
    Rets S (awaitChangeCipherSpec env a b) := by
  unfold awaitChangeCipherSpec; simp only [bind_eq, pure_eq]
  refine Rets.bind fun _ => ?_
  split
  · exact .bind fun _ => .bind fun _ => .pure hb
  · exact .pure ha

theorem awaitApplicationData_rets {a b : St} (ha : S a) (hb : S b) :
    Rets S (awaitApplicationData env a b) := by
  unfold awaitApplicationData; simp only [bind_eq, pure_eq]
  refine Rets.bind fun _ => ?_
  split
  · exact .bind fun _ => .bind fun _ => .pure hb
  · exact .bind fun _ => .pure ha

theorem announceConnected_rets {a : St} (ha : S a) (f g) : Rets S (announceConnected env a f g) := by
  have := Rets.pure (St := St) ha
  unfold announceConnected; simp only [bind_eq, pure_eq]; rets

end rets

namespace C12
variable {env : PEnv} {ok : Bytes → Prop}

/-- States in which keys are set. -/
def late : CSt → Bool
  | .sendFinished | .awaitChangeCipherSpec | .awaitNewSessionTicket | .awaitFinished
  | .awaitApplicationData => true
  | _ => false

/-- Keys are set by `send_change_cipher_spec`, which cannot derive them twice. -/
def K (st : CSt) (k : Option Keys) (p : Option Bytes) : Prop :=
  st = .closed ∨ (late st = true ∧ k ≠ none) ∨ (late st = false ∧ k = none) ∨
    (st = .sendChangeCipherSpec ∧ p = none ∧ k ≠ none)

theorem sendClientHello_rets : Rets (late · = false) (sendClientHello env) := by
  unfold sendClientHello; simp only [bind_eq, pure_eq]; rets
theorem awaitHelloVerifyRequest_rets : Rets (late · = false) (awaitHelloVerifyRequest env) := by
  unfold awaitHelloVerifyRequest; simp only [bind_eq, pure_eq]; rets
theorem awaitServerHello_rets : Rets (late · = false) (awaitServerHello env) := by
  unfold awaitServerHello; simp only [bind_eq, pure_eq]; rets
theorem awaitCertificate_rets : Rets (late · = false) (awaitCertificate env) := by
  unfold awaitCertificate; simp only [bind_eq, pure_eq]; rets
theorem awaitServerKeyExchangeEcdhe_rets (s) :
    Rets (late · = false) (awaitServerKeyExchangeEcdhe env s) := by
  unfold awaitServerKeyExchangeEcdhe; simp only [bind_eq, pure_eq]; rets
theorem awaitServerKeyExchangePsk_rets : Rets (late · = false) (awaitServerKeyExchangePsk env) := by
  unfold awaitServerKeyExchangePsk; simp only [bind_eq, pure_eq]; rets
theorem awaitServerKeyExchange_rets : Rets (late · = false) (awaitServerKeyExchange env) := by
  unfold awaitServerKeyExchange; simp only [bind_eq]; rets
  · exact awaitServerKeyExchangePsk_rets
  · exact awaitServerKeyExchangeEcdhe_rets _
theorem awaitCertificateRequest_rets : Rets (late · = false) (awaitCertificateRequest env) := by
  unfold awaitCertificateRequest; simp only [bind_eq, pure_eq]; rets
theorem awaitServerHelloDone_rets : Rets (late · = false) (awaitServerHelloDone env) := by
  unfold awaitServerHelloDone; simp only [bind_eq, pure_eq]; rets
theorem sendCertificate_rets : Rets (late · = false) (sendCertificate env) := by
  unfold sendCertificate; simp only [bind_eq, pure_eq]; rets
theorem sendClientKeyExchange_rets : Rets (late · = false) (sendClientKeyExchange env) := by
  unfold sendClientKeyExchange; simp only [bind_eq, pure_eq]; rets
  all_goals exact .pure (by dsimp only; split <;> rfl)
theorem sendCertificateVerify_rets : Rets (late · = false) (sendCertificateVerify env) := by
  unfold sendCertificateVerify; simp only [bind_eq, pure_eq]; rets

theorem sendFinished_rets : Rets (late · = true) (sendFinished env) := by
  unfold sendFinished; simp only [bind_eq, pure_eq]; rets
theorem awaitNewSessionTicket_rets : Rets (late · = true) (awaitNewSessionTicket env) := by
  unfold awaitNewSessionTicket; simp only [bind_eq, pure_eq]; rets
theorem awaitFinished_rets : Rets (late · = true) (awaitFinished env) := by
  unfold awaitFinished; simp only [bind_eq, pure_eq]; rets
  exact announceConnected_rets (S := (late · = true)) rfl _ _

theorem deriveKeys_wp (s : Ses CSt) (hk : s.eng.keys = none) :
    wp (deriveKeys env) s
      (fun _ s' => Steps env.toEnv ok s.eng s'.eng ∧ s'.queued = s.queued ∧ s'.st = s.st ∧
        s'.pms = none ∧ s'.eng.keys ≠ none)
      (fun _ s' => Steps env.toEnv ok s.eng s'.eng ∧ s'.queued = s.queued ∧ s'.st = s.st ∧
        s'.eng.keys = none) := by
  have h0 : Steps env.toEnv ok s.eng s.eng := .refl _
  unfold deriveKeys
  simp only [bind_eq, wp_bind, wp_get]
  refine wp_orFatal_of (fun _ hs => wp_orFatal_of (fun _ _ => wp_orPanic_of (fun _ _ =>
    wp_orFatal_of (fun _ _ => ?_) ⟨h0, rfl, rfl, hk⟩) ⟨h0, rfl, rfl, hk⟩) ⟨h0, rfl, rfl, hk⟩)
    ⟨h0, rfl, rfl, hk⟩
  exact deriveMaster_wp _ _ _ _ _ hk hs

theorem deriveKeys_none (s : Ses CSt) (hp : s.pms = none) :
    wp (deriveKeys env) s (fun _ _ => False) (fun _ s' => s' = s) := by
  unfold deriveKeys
  simp only [bind_eq, wp_bind, wp_get]
  exact wp_orFatal_of (fun _ _ => wp_orFatal_of (fun _ _ => wp_orPanic_of (fun _ _ =>
    wp_orFatal_of (fun _ _ => deriveMaster_none _ _ _ _ _ hp) rfl) rfl) rfl) rfl

theorem sendChangeCipherSpec_walk (h1 : ok [1]) {s : Ses CSt} {e0 : Eng} (h : Walk env ok K e0 s)
    (hst : s.st = .sendChangeCipherSpec) (hk : s.eng.keys = none ∨ (s.pms = none ∧ s.eng.keys ≠ none)) :
    wp (sendChangeCipherSpec env) s
      (fun new s' => s'.st = s.st ∧ Walk env ok K e0 { s' with st := new })
      (fun _ s' => Walk env ok K e0 s') := by
  unfold sendChangeCipherSpec
  rw [bind_eq, wp_bind]
  rcases hk with hk | hk
  · refine wp_mono (deriveKeys_wp (ok := ok) s hk) ?_ ?_
    · rintro _ s' ⟨g1, g2, g3, g4, g5⟩
      rw [bind_eq, wp_bind, wp_onEng]
      have g6 : Steps env.toEnv ok e0 (createRecord env.toEnv ctCCS 0 true false [1] s'.eng).2 :=
        Steps.core (h.steps.trans g1) (.one (.record _ _ _ _ _ _ h1 nofun))
      have g7 : (createRecord env.toEnv ctCCS 0 true false [1] s'.eng).2.keys ≠ none := by
        rw [(createRecord_keep env.toEnv ctCCS 0 true false [1] s'.eng).2.2]; exact g5
      refine wp_mono (to_wp (R := fun e => Steps env.toEnv ok e0 e ∧ e.keys ≠ none) ⟨g6, g7⟩) ?_ ?_
      · intro _ e he
        exact ⟨g3, he.1, fun d hd => h.queued d (g2 ▸ hd), .inr (.inl ⟨rfl, he.2⟩)⟩
      · intro _ e he
        exact ⟨he.1, fun d hd => h.queued d (g2 ▸ hd), .inr (.inr (.inr ⟨g3.trans hst, g4, he.2⟩))⟩
    · rintro _ s' ⟨g1, g2, g3, g4⟩
      exact ⟨h.steps.trans g1, fun d hd => h.queued d (g2 ▸ hd),
        .inr (.inr (.inl ⟨by rw [g3, hst]; rfl, g4⟩))⟩
  · refine wp_mono (deriveKeys_none s hk.1) ?_ ?_
    · intro _ _ hf; exact hf.elim
    · rintro _ s' rfl
      exact h

theorem keyRule (h1 : ok [1]) (h2 : ok [1, 0]) : KeyRule role env ok K where
  alert := h2
  closed _ _ := .inl rfl
  app k p h := by simpa [K, role, late] using h
  step s e0 h := by
    have hn : ∀ st p, late st = false → K st none p := fun _ _ h => .inr (.inr (.inl ⟨h, rfl⟩))
    have hl : ∀ st k p, late st = true → k ≠ none → K st k p := fun _ _ _ h g => .inr (.inl ⟨h, g⟩)
    suffices H : ∀ x, s.st = x → K x s.eng.keys s.pms → wp (step env x) s
        (fun new s' => s'.st = s.st ∧ Walk env ok K e0 { s' with st := new })
        (fun _ s' => Walk env ok K e0 s') from H _ rfl h.keys
    intro x hst hk
    cases x <;> simp [K, late] at hk
    · exact h.early sendClientHello_calm.early sendClientHello_rets (by rw [hst]; rfl) hk hn
    · exact h.early awaitHelloVerifyRequest_calm.early awaitHelloVerifyRequest_rets (by rw [hst]; rfl) hk hn
    · exact h.early awaitServerHello_early awaitServerHello_rets (by rw [hst]; rfl) hk hn
    · exact h.early awaitCertificate_calm.early awaitCertificate_rets (by rw [hst]; rfl) hk hn
    · exact h.early awaitServerKeyExchange_calm.early awaitServerKeyExchange_rets (by rw [hst]; rfl) hk hn
    · exact h.early awaitCertificateRequest_calm.early awaitCertificateRequest_rets (by rw [hst]; rfl) hk hn
    · exact h.early awaitServerHelloDone_calm.early awaitServerHelloDone_rets (by rw [hst]; rfl) hk hn
    · exact h.early sendCertificate_calm.early sendCertificate_rets (by rw [hst]; rfl) hk hn
    · exact h.early sendClientKeyExchange_calm.early sendClientKeyExchange_rets (by rw [hst]; rfl) hk hn
    · exact h.early sendCertificateVerify_calm.early sendCertificateVerify_rets (by rw [hst]; rfl) hk hn
    · exact sendChangeCipherSpec_walk h1 h hst hk
    · exact h.late sendFinished_calm sendFinished_rets (by rw [hst]; rfl) hk hl
    · exact h.late (awaitChangeCipherSpec_calm _ _)
        (awaitChangeCipherSpec_rets (S := (late · = true)) rfl rfl) (by rw [hst]; rfl) hk hl
    · exact h.late awaitNewSessionTicket_calm awaitNewSessionTicket_rets (by rw [hst]; rfl) hk hl
    · exact h.late awaitFinished_calm awaitFinished_rets (by rw [hst]; rfl) hk hl
    · exact h.app (awaitApplicationData_calm h2 _ _)
        (awaitApplicationData_rets (S := fun x => x = s.st ∨ x = .closed) (.inl hst.symm) (.inr rfl)) hk
        (by rw [hst]; exact fun _ => hl _ _ _ rfl hk) fun _ _ => .inl rfl
    · exact ⟨rfl, h.steps, h.queued, .inl rfl⟩

/-- Every execution of a client is a sequence of engine steps. -/
theorem steps (h1 : ok [1]) (h2 : ok [1, 0]) (cfg : Cfg) (now : Nat) (cs : List Call)
    (hc : ∀ d, .send d ∈ cs → ok d) :
    Steps env.toEnv ok (.new env.toEnv cfg true) (run role env (start env cfg now) cs).2.eng :=
  (((keyRule h1 h2).stable _).run (start env cfg now) cs hc
    ⟨.refl _, (fun _ hd => by cases hd), .inr (.inr (.inl ⟨rfl, rfl⟩))⟩).steps

end C12

namespace S12
variable {env : PEnv} {ok : Bytes → Prop}

/-- States in which keys are set. -/
def late : SSt → Bool
  | .awaitCertificateVerify | .awaitChangeCipherSpec | .awaitFinished | .sendChangeCipherSpec
  | .sendFinished | .awaitApplicationData => true
  | _ => false

/-- Keys are set by `await_client_key_exchange`. -/
def K (st : SSt) (k : Option Keys) (_ : Option Bytes) : Prop :=
  st = .closed ∨ (late st = true ∧ k ≠ none) ∨ (late st = false ∧ k = none)

theorem acceptClientHello_rets (c) : Rets (late · = false) (acceptClientHello env c) := by
  unfold acceptClientHello; simp only [bind_eq, pure_eq]; rets
theorem awaitClientHello_rets : Rets (late · = false) (awaitClientHello env) := by
  have := @acceptClientHello_rets env
  unfold awaitClientHello sendHelloVerify; simp only [bind_eq, pure_eq]; rets
  exact this _
theorem sendServerHello_rets : Rets (late · = false) (sendServerHello env) := by
  unfold sendServerHello; simp only [bind_eq, pure_eq]; rets
theorem sendCertificate_rets : Rets (late · = false) (sendCertificate env) := by
  unfold sendCertificate; simp only [bind_eq, pure_eq]; rets
theorem sendServerKeyExchange_rets : Rets (late · = false) (sendServerKeyExchange env) := by
  unfold sendServerKeyExchange sendServerKeyExchangePsk sendServerKeyExchangeEcdhe
  simp only [bind_eq, pure_eq]; rets
  all_goals exact .pure (by dsimp only; split <;> rfl)
theorem sendCertificateRequest_rets : Rets (late · = false) (sendCertificateRequest env) := by
  unfold sendCertificateRequest; simp only [bind_eq, pure_eq]; rets
theorem sendServerHelloDone_rets : Rets (late · = false) (sendServerHelloDone env) := by
  unfold sendServerHelloDone; simp only [bind_eq, pure_eq]; rets
theorem awaitCertificate_rets : Rets (late · = false) (awaitCertificate env) := by
  unfold awaitCertificate; simp only [bind_eq, pure_eq]; rets

theorem awaitCertificateVerify_rets : Rets (late · = true) (awaitCertificateVerify env) := by
  unfold awaitCertificateVerify; simp only [bind_eq, pure_eq]; rets
theorem awaitFinished_rets : Rets (late · = true) (awaitFinished env) := by
  unfold awaitFinished; simp only [bind_eq, pure_eq]; rets
theorem sendChangeCipherSpec_rets : Rets (late · = true) (sendChangeCipherSpec env) := by
  unfold sendChangeCipherSpec; simp only [bind_eq, pure_eq]; rets
theorem sendFinished_rets : Rets (late · = true) (sendFinished env) := by
  unfold sendFinished; simp only [bind_eq]; rets
  exact announceConnected_rets (S := (late · = true)) rfl _ _

/-- Rule for a step that runs a calm function first. -/
theorem Walk_bind {α : Type} {e0 : Eng} {s : Ses SSt} (h : Walk env ok K e0 s)
    (hst : late s.st = false) (hk : s.eng.keys = none) {m : Sv α} (hm : Calm env ok False m)
    {Q : SSt → Ses SSt → Prop} {f : α → Sv SSt}
    (hf : ∀ a s', Walk env ok K e0 s' → s'.eng.keys = none → s'.st = s.st → s'.eng.suite = s.eng.suite →
      wp (f a) s' Q (fun _ s' => Walk env ok K e0 s')) :
    wp (M.bind m f) s Q (fun _ s' => Walk env ok K e0 s') := by
  rw [wp_bind]
  obtain ⟨g1, g2, g3⟩ := hm s h.queued nofun
  have gk := g1.keep.keys.trans hk
  have gs := g1.keep.suite
  have gw : Walk env ok K e0 (m s).2 :=
    ⟨h.steps.core g1, g2, .inr (.inr ⟨g3.symm ▸ hst, gk⟩)⟩
  apply wp_of
  · intro a s' he
    rw [he] at g3 gk gw gs
    exact hf a s' gw gk g3 gs
  · intro f s' he
    rw [he] at gw
    exact gw

theorem finishClientKx_wp {e0 : Eng} {s : Ses SSt} (suite : Nat) (h : Walk env ok K e0 s)
    (hst : late s.st = false) (hk : s.eng.keys = none) (hs : s.eng.suite = some suite) :
    wp (finishClientKx env suite) s (fun new s' => s'.st = s.st ∧ Walk env ok K e0 { s' with st := new })
      (fun _ s' => Walk env ok K e0 s') := by
  unfold finishClientKx
  simp only [bind_eq, pure_eq, wp_bind, wp_get, wp_modify]
  have hw : Walk env ok K e0 { s with sessionHash := some s.eng.transcript } :=
    ⟨h.steps, h.queued, .inr (.inr ⟨hst, hk⟩)⟩
  refine wp_orPanic_of (fun _ _ => wp_orPanic_of (fun _ _ => ?_) hw) hw
  refine wp_mono (deriveMaster_wp (ok := ok) _ _ _ _ _ hk hs) ?_ ?_
  · rintro _ s' ⟨g1, g2, g3, g4, g5⟩
    refine ⟨g3, h.steps.trans g1, fun d hd => h.queued d (g2 ▸ hd), .inr (.inl ⟨?_, g5⟩)⟩
    show late (if _ then _ else _) = true
    split <;> rfl
  · rintro _ s' ⟨g1, g2, g3, g4⟩
    exact ⟨h.steps.trans g1, fun d hd => h.queued d (g2 ▸ hd), .inr (.inr ⟨g3.symm ▸ hst, g4⟩)⟩

theorem awaitClientKeyExchange_walk {s : Ses SSt} {e0 : Eng} (h : Walk env ok K e0 s)
    (hst : late s.st = false) (hk : s.eng.keys = none) :
    wp (awaitClientKeyExchange env) s
      (fun new s' => s'.st = s.st ∧ Walk env ok K e0 { s' with st := new })
      (fun _ s' => Walk env ok K e0 s') := by
  unfold awaitClientKeyExchange
  simp only [bind_eq, pure_eq]
  refine Walk_bind h hst hk (Calm.nextHandshake _) fun m s1 w1 k1 e1 _ => ?_
  have t1 := e1 ▸ hst
  split
  · exact ⟨e1, w1.steps, w1.queued, .inr (.inr ⟨rfl, k1⟩)⟩
  · rw [wp_bind, wp_get, wp_bind]
    refine wp_orFatal_of (fun y hy => ?_) w1
    split
    · split
      · refine Walk_bind w1 t1 k1 (clientKxPsk_calm _) fun z s4 w4 k4 e4 q4 => ?_
        have := finishClientKx_wp (ok := ok) y w4 (e4 ▸ t1) k4 (q4.trans hy)
        rw [e4, e1] at this
        exact this
      · exact w1
    · split
      · refine Walk_bind w1 t1 k1 (clientKxEcdh_calm _) fun z s4 w4 k4 e4 q4 => ?_
        have := finishClientKx_wp (ok := ok) y w4 (e4 ▸ t1) k4 (q4.trans hy)
        rw [e4, e1] at this
        exact this
      · exact w1
  · exact w1

theorem keyRule (h1 : ok [1]) (h2 : ok [1, 0]) : KeyRule role env ok K where
  alert := h2
  closed _ _ := .inl rfl
  app k p h := by simpa [K, role, late] using h
  step s e0 h := by
    have hn : ∀ st p, late st = false → K st none p := fun _ _ h => .inr (.inr (⟨h, rfl⟩))
    have hl : ∀ st k p, late st = true → k ≠ none → K st k p := fun _ _ _ h g => .inr (.inl ⟨h, g⟩)
    suffices H : ∀ x, s.st = x → K x s.eng.keys s.pms → wp (step env x) s
        (fun new s' => s'.st = s.st ∧ Walk env ok K e0 { s' with st := new })
        (fun _ s' => Walk env ok K e0 s') from H _ rfl h.keys
    intro x hst hk
    cases x <;> simp [K, late] at hk
    · exact h.early awaitClientHello_early awaitClientHello_rets (by rw [hst]; rfl) hk hn
    · exact h.early sendServerHello_calm.early sendServerHello_rets (by rw [hst]; rfl) hk hn
    · exact h.early sendCertificate_calm.early sendCertificate_rets (by rw [hst]; rfl) hk hn
    · exact h.early sendServerKeyExchange_calm.early sendServerKeyExchange_rets (by rw [hst]; rfl) hk hn
    · exact h.early sendCertificateRequest_calm.early sendCertificateRequest_rets (by rw [hst]; rfl) hk hn
    · exact h.early sendServerHelloDone_calm.early sendServerHelloDone_rets (by rw [hst]; rfl) hk hn
    · exact h.early awaitCertificate_calm.early awaitCertificate_rets (by rw [hst]; rfl) hk hn
    · exact awaitClientKeyExchange_walk h (by rw [hst]; rfl) hk
    · exact h.late awaitCertificateVerify_calm awaitCertificateVerify_rets (by rw [hst]; rfl) hk hl
    · exact h.late (awaitChangeCipherSpec_calm _ _)
        (awaitChangeCipherSpec_rets (S := (late · = true)) rfl rfl) (by rw [hst]; rfl) hk hl
    · exact h.late awaitFinished_calm awaitFinished_rets (by rw [hst]; rfl) hk hl
    · exact h.late (sendChangeCipherSpec_calm h1) sendChangeCipherSpec_rets (by rw [hst]; rfl) hk hl
    · exact h.late sendFinished_calm sendFinished_rets (by rw [hst]; rfl) hk hl
    · exact h.app (awaitApplicationData_calm h2 _ _)
        (awaitApplicationData_rets (S := fun x => x = s.st ∨ x = .closed) (.inl hst.symm) (.inr rfl)) hk
        (by rw [hst]; exact fun _ => hl _ _ _ rfl hk) fun _ _ => .inl rfl
    · exact ⟨rfl, h.steps, h.queued, .inl rfl⟩

/-- Every execution of a server is a sequence of engine steps. -/
theorem steps (h1 : ok [1]) (h2 : ok [1, 0]) (cfg : Cfg) (now : Nat) (cs : List Call)
    (hc : ∀ d, .send d ∈ cs → ok d) :
    Steps env.toEnv ok (.new env.toEnv cfg false) (run role env (start env cfg now) cs).2.eng :=
  (((keyRule h1 h2).stable _).run (start env cfg now) cs hc
    ⟨.refl _, (fun _ hd => by cases hd), .inr (.inr (⟨rfl, rfl⟩))⟩).steps

end S12
end Verif.E12

import Verif.Lemmas.Clock13
import Verif.Lemmas.Saga13
/-!
# The connect timer of a DTLS 1.3 server
-/
namespace Verif.E13
open Verif Wire Window Timer Aead M
open Verif.E12 (Call Output Ret ApiRes toApi)

section walk
variable {R : Role} {env : PEnv} {K : Cfg × Timeout → Ses R.St → Prop}

/-- What induction over calls needs, for a statement relating a session to what its connect timer would
be had nothing stopped it. -/
structure Walk (R : Role) (env : PEnv) (K : Cfg × Timeout → Ses R.St → Prop) : Prop where
  step : ∀ x s, K x s → wp (R.step env s.st) s (fun new s' => s'.st = s.st ∧ K x { s' with st := new })
    (fun f s' => s'.st = s.st ∧ (gone f ∨ K x s'))
  same : ∀ x s s', K x s → s'.eng.ck = s.eng.ck → s'.authRequested = s.authRequested → s'.st = s.st → K x s'
  tick : ∀ x (s : Ses R.St) n e, K x s → e.ck = afterCall (.timeout n) s.eng.ck →
    K (afterCall (.timeout n) x) { s with eng := e }
  shut : ∀ x (s : Ses R.St) e st, K x s → e.ck = (s.eng.cfg, .disabled) → st = R.halfClosed ∨ st = R.closed →
    K x { s with eng := e, st := st }

theorem Walk.progress (w : Walk R env K) (x : Cfg × Timeout) (fuel : Nat) (s : Ses R.St) (hk : K x s) :
    wp (progress R env fuel) s (fun _ s' => K x s') (fun f s' => gone f ∨ K x s') := by
  induction fuel generalizing s with
  | zero => exact .inl trivial
  | succ fuel ih =>
    unfold E13.progress
    simp only [bind_eq, pure_eq, wp_bind, wp_get]
    refine wp_mono (w.step x s hk) ?_ (fun _ _ g => g.2)
    intro new s' ⟨e, g⟩
    split
    · next e2 =>
      have : ({ s' with st := new } : Ses R.St) = s' := by rw [← e2, ← e]
      rw [this] at g
      exact g
    · exact ih _ g

/-- Calls keep what is known of the connect timer. -/
theorem Walk.call (w : Walk R env K) (x : Cfg × Timeout) (c : Call) (s : Ses R.St) (hk : K x s)
    (hr : ¬ Stops (call R env s c).1) : K (afterCall c x) (call R env s c).2 := by
  have key : ∀ (m : P R.St Unit) (y : Cfg × Timeout),
      wp m s (fun _ s' => K y s') (fun f s' => gone f ∨ K y s') →
      ¬ Stops (.res (toApi (m s).1)) → K y (m s).2 := by
    intro m y hm hs
    unfold wp at hm
    split at hm
    · next a s' he => rw [he]; exact hm
    · next f s' he =>
      rw [he] at hs ⊢
      rcases hm with hm | hm
      · cases f <;> simp [gone, Stops, toApi] at hm hs
      · exact hm
  cases c with
  | packet p =>
    refine key (handlePacketM R env p) x ?_ hr
    have step : ∀ s1, K x s1 → wp (onEng (parsePacket env.toEnv p) : P R.St Unit) s1
        (fun _ s2 => wp (E13.progress R env progressFuel) s2
          (fun _ s3 => wp (M.modify fun s : Ses R.St =>
            if (s.autoMode && !R.first s.st) = true then { s with retained := [], autoMode := false } else s) s3
            (fun _ s' => K x s') (fun f s' => gone f ∨ K x s'))
          (fun f s' => gone f ∨ K x s'))
        (fun f s' => gone f ∨ K x s') := by
      intro s1 h1
      have h2 : K x { s1 with eng := (parsePacket env.toEnv p s1.eng).2 } :=
        w.same _ _ _ h1 (parsePacket_ck p s1.eng) rfl rfl
      rw [wp_onEng]
      refine wp_mono (to_wp (R := fun e => e = (parsePacket env.toEnv p s1.eng).2) rfl) ?_ ?_
      · intro _ e he
        subst he
        refine wp_mono (w.progress x _ _ h2) ?_ (fun _ _ g => g)
        intro _ s3 h3
        rw [wp_modify]
        split
        · exact w.same _ _ _ h3 rfl rfl rfl
        · exact h3
      · intro f e he; subst he; exact .inr h2
    unfold handlePacketM
    simp only [bind_eq, wp_bind, wp_get]
    split
    · split
      · rw [wp_bind, wp_fatal]; exact .inr hk
      · rw [wp_bind, wp_modify, wp_bind]
        refine wp_mono (step _ (w.same _ _ _ hk rfl rfl rfl)) ?_ (fun _ _ g => g)
        intro _ _ g; rw [wp_bind]; exact g
    · rw [wp_bind]
      refine wp_mono (step _ hk) ?_ (fun _ _ g => g)
      intro _ _ g; rw [wp_bind]; exact g
  | timeout n =>
    refine key (handleTimeoutM R env n) _ ?_ hr
    unfold handleTimeoutM
    simp only [bind_eq, wp_bind, wp_modify]
    rw [wp_onEng]
    have h1 : K x (noteTime R env n s) := by
      refine w.same _ _ _ hk (noteTime_ck n s) ?_ (noteTime_eng n s (clock_frame env.toEnv)).2.2
      unfold noteTime; split <;> rfl
    have h2 : K (afterCall (.timeout n) x) { noteTime R env n s with
        eng := (handleTimeout env.toEnv n (noteTime R env n s).eng).2 } :=
      w.tick _ _ _ _ h1 (handleTimeout_after ..)
    refine wp_mono (to_wp (R := fun e => e = (handleTimeout env.toEnv n (noteTime R env n s).eng).2) rfl) ?_ ?_
    · intro _ e he
      subst he
      exact w.progress _ _ _ h2
    · intro f e he; subst he; exact .inr h2
  | send d =>
    refine key (sendM R env d) x ?_ hr
    unfold sendM
    simp only [bind_eq, wp_bind, wp_get]
    split
    · exact .inr hk
    · split
      · exact w.same _ _ _ hk rfl rfl rfl
      · unfold sendApp
        have h2 : K x { s with eng := (createCipher env.toEnv ctAppData s.eng.appEpoch false d s.eng).2 } :=
          w.same _ _ _ hk (createCipher_ck ..) rfl rfl
        rw [wp_onEng]
        refine wp_mono (to_wp (R := fun e => e = (createCipher env.toEnv ctAppData s.eng.appEpoch false d s.eng).2)
          rfl) ?_ ?_
        · intro _ e he; subst he; exact h2
        · intro f e he; subst he; exact .inr h2
  | close =>
    refine key (closeM R env) x ?_ hr
    unfold closeM
    simp only [bind_eq, pure_eq, wp_bind, wp_get]
    split
    · exact hk
    · split
      · rw [wp_bind, wp_onEng', wp_modify]
        exact w.shut _ s _ _ hk rfl (.inr rfl)
      · have h2 : K x { s with eng := (createCipher env.toEnv ctAlert s.eng.appEpoch false [1, 0] s.eng).2 } :=
          w.same _ _ _ hk (createCipher_ck ..) rfl rfl
        rw [wp_bind, wp_onEng]
        refine wp_mono (to_wp (R := fun e => e = (createCipher env.toEnv ctAlert s.eng.appEpoch false [1, 0] s.eng).2)
          rfl) ?_ ?_
        · intro _ e he
          subst he
          rw [wp_bind, wp_onEng', wp_modify]
          exact w.shut x { s with eng := (createCipher env.toEnv ctAlert s.eng.appEpoch false [1, 0] s.eng).2 } _ _ h2
            rfl (.inl rfl)
        · intro f e he; subst he; exact .inr h2
  | poll n =>
    show K x (pollM R n s).2
    unfold pollM
    split
    · exact w.same _ _ _ hk rfl rfl rfl
    · exact w.same _ _ _ hk (pollOutput_ck ..) rfl rfl

theorem Walk.run (w : Walk R env K) (x : Cfg × Timeout) (cs : List Call) (s : Ses R.St) (hk : K x s)
    (hr : ∀ r ∈ (run R env s cs).1, ¬ Stops r) :
    K (cs.foldl (fun x c => afterCall c x) x) (run R env s cs).2 := by
  induction cs generalizing x s with
  | nil => exact hk
  | cons c cs ih =>
    rw [run_fst] at hr
    split at hr
    · rename_i h; exact absurd h (hr _ (by simp))
    · rename_i h
      rw [run_snd, if_neg h]
      exact ih _ _ (w.call x c s hk h) (fun r hx => hr r (by simp [hx]))

end walk

namespace S13

/-- The handshake is over, or the session was closed. -/
def over : SSt → Bool
  | .awaitApplicationData | .halfClosedLocal | .closed => true
  | _ => false

/-- Whether the client was asked for a certificate stays as it is. -/
def Asks (s s' : Ses SSt) : Prop := s'.authRequested = s.authRequested

theorem Asks.rel : SRel Asks where
  refl _ := rfl
  trans _ _ _ h g := Eq.trans g h
  eng _ _ _ := rfl

theorem asks_onEng {α : Type} (m : E α) : SFr Asks (onEng m : P SSt α) := fun _ => ⟨rfl, rfl⟩
theorem asks_onEng' (f : Eng → Eng) : SFr Asks (onEng' f : P SSt Unit) := fun _ => ⟨rfl, rfl⟩

variable {env : PEnv}

/-- Prove `SFr Asks` of a function by its syntax. -/
macro "asks" : tactic => `(tactic|
  repeat' first
    | with_reducible exact asks_onEng _
    | with_reducible exact asks_onEng' _
    | with_reducible exact SFr.pure Asks.rel _
    | with_reducible exact SFr.get Asks.rel
    | with_reducible exact SFr.fatal Asks.rel _
    | with_reducible exact SFr.transient Asks.rel
    | with_reducible exact SFr.panic Asks.rel
    | with_reducible exact SFr.fail Asks.rel _
    | with_reducible exact SFr.check Asks.rel _ _
    | with_reducible exact SFr.orFatal Asks.rel _ _
    | with_reducible exact SFr.orPanic Asks.rel _
    | with_reducible exact SFr.orTransient Asks.rel _
    | with_reducible exact SFr.drawTick Asks.rel
    | (with_reducible refine SFr.modify ?_ ?_) <;> exact fun _ => rfl
    | assumption
    | with_reducible refine SFr.bind Asks.rel ?_ (fun _ => ?_)
    | split)

theorem clientExtensions_asks (l : List (Nat × Bytes)) (x : ChExts) : SFr Asks (clientExtensions env l x) := by
  induction l generalizing x with
  | nil => exact .pure Asks.rel _
  | cons a l ih =>
    obtain ⟨t, d⟩ := a
    have ih := fun x => ih x
    unfold clientExtensions
    simp only [bind_eq]
    asks <;> exact ih _

theorem step_asks (st : SSt) (h : st ≠ .sendCertificateRequest) : SFr Asks (S13.step env st) := by
  cases st
  case sendCertificateRequest => exact absurd rfl h
  case awaitApplicationData => exact fun s => ⟨(app_later (env := env) _ s).1.authRequested, (app_later _ s).2⟩
  case halfClosedLocal => exact fun s => ⟨(half_later (env := env) _ _ s).1.authRequested, (half_later _ _ s).2⟩
  case closed => exact .pure Asks.rel _
  case awaitClientHello =>
    have h1 := fun l x => clientExtensions_asks (env := env) l x
    unfold S13.step awaitClientHello clientHello checkCookie chooseShare acceptClientHello sendRetry setSuite
    simp only [bind_eq, pure_eq]
    asks
    exact h1 _ _
  case sendServerHello =>
    unfold S13.step sendServerHello installHandshake
    simp only [bind_eq, pure_eq]
    asks
  case awaitFinished =>
    unfold S13.step awaitFinished announceConnected computeVerify
    simp only [bind_eq, pure_eq]
    asks
  case sendFinished =>
    unfold S13.step sendFinished installApplication computeVerify
    simp only [bind_eq, pure_eq]
    asks
  case awaitCertificate =>
    unfold S13.step awaitCertificate
    simp only [bind_eq, pure_eq]
    asks
  case awaitCertificateVerify =>
    unfold S13.step awaitCertificateVerify
    simp only [bind_eq, pure_eq]
    asks
  case sendCertificateVerify =>
    unfold S13.step sendCertificateVerify certificateVerifyBody
    simp only [bind_eq, pure_eq]
    asks
  case sendEncryptedExtensions =>
    unfold S13.step sendEncryptedExtensions
    simp only [bind_eq, pure_eq]
    asks
  case sendCertificate =>
    unfold S13.step sendCertificate
    simp only [bind_eq, pure_eq]
    asks

/-- The states that do not stop the timers leave them alone. -/
theorem step_ck (st : SSt) (h : stops st = false) : AFr (fun _ => True) SameClock (S13.step env st) := by
  by_cases h1 : st = .awaitApplicationData
  · subst h1; exact awaitApplicationData_fr (clock_frame env.toEnv) (clock_app env.toEnv) _
  · by_cases h2 : st = .halfClosedLocal
    · subst h2; exact (halfClosedLocal_fr (clock_frame env.toEnv) (clock_app env.toEnv).newRecv _ _).afr
    · exact (S13.step_fr (clock_frame env.toEnv) st h1 h2 (fun g => by rw [h] at g; cases g)
        fun _ => clock_keyFrame env.toEnv).afr

theorem wp_onEng_ck {α : Type} {m : E α} (h : ∀ e, (m e).2.ck = e.ck) (s : Ses SSt) :
    wp (onEng m : P SSt α) s (fun _ s' => s'.eng.ck = s.eng.ck) (fun _ s' => s'.eng.ck = s.eng.ck) := by
  rw [wp_onEng]
  exact to_wp (R := fun e : Eng => e.ck = s.eng.ck) (h s.eng)

theorem wp_advance_ck (s : Ses SSt) :
    wp (onEng advancePeerSeq : P SSt Unit) s (fun _ s' => s'.eng.ck = s.eng.ck) (fun f _ => gone f) := by
  rw [wp_onEng]
  refine wp_mono (wp_and (to_wp (m := advancePeerSeq) (s := s.eng) (R := fun e => e.ck = s.eng.ck)
    (advancePeerSeq_ck s.eng)) (advancePeerSeq_ok s.eng)) ?_ ?_
  · exact fun _ _ h => h.1
  · exact fun _ _ h => h.2

/-- The connect timer is stopped. -/
def Halted (s s' : Ses SSt) : Prop := s'.eng.ck = (s.eng.cfg, Timeout.disabled)

theorem halted_stop {s s' : Ses SSt} (h : s'.eng.ck = s.eng.ck) :
    Halted s { s' with eng := flightStop s'.eng } := by
  have : s'.eng.cfg = s.eng.cfg := congrArg Prod.fst h
  show ((flightStop s'.eng).cfg, (flightStop s'.eng).timers.connect) = _
  show (s'.eng.cfg, Timeout.disabled) = _
  rw [this]

/-- `await_certificate` stops the timers exactly when it leaves the state. -/
theorem awaitCertificate_ck (s : Ses SSt) : wp (S13.awaitCertificate env) s
    (fun new s' => (new = .awaitCertificate ∧ s'.eng.ck = s.eng.ck) ∨
      ((new = .awaitFinished ∨ new = .awaitCertificateVerify) ∧ Halted s s'))
    (fun f s' => gone f ∨ s'.eng.ck = s.eng.ck) := by
  unfold S13.awaitCertificate
  simp only [bind_eq, pure_eq]
  rw [wp_bind]
  refine wp_mono (wp_onEng_ck (fun e => nextHandshakeWith_ck false true mtCertificate e) s) ?_ (fun _ _ h => .inr h)
  intro m s1 h1
  split
  · exact .inl ⟨rfl, h1⟩
  · rw [wp_bind]
    refine wp_mono (wp_advance_ck s1) ?_ (fun _ _ h => .inl h)
    intro _ s2 h2
    rw [wp_bind, wp_onEng']
    exact .inr ⟨.inl rfl, halted_stop (h2.trans h1)⟩
  · rw [wp_bind, wp_modify, wp_bind, wp_onEng', wp_bind]
    refine wp_mono (wp_advance_ck _) ?_ (fun _ _ h => .inl h)
    intro _ s2 h2
    exact .inr ⟨.inr rfl, Eq.trans h2 (halted_stop (s' := s1) h1)⟩
  · exact .inl trivial

/-- `await_finished` stops the timers exactly when it leaves the state. -/
theorem awaitFinished_ck (s : Ses SSt) : wp (S13.awaitFinished env) s
    (fun new s' => (new = .awaitFinished ∧ s'.eng.ck = s.eng.ck) ∨ (new = .awaitApplicationData ∧ Halted s s'))
    (fun f s' => gone f ∨ s'.eng.ck = s.eng.ck) := by
  unfold S13.awaitFinished computeVerify
  simp only [bind_eq, pure_eq, wp_bind]
  rw [wp_get]
  refine wp_orFatal_of (fun _ _ => ?_) (.inr rfl)
  rw [wp_get]
  refine wp_orPanic_of (fun _ _ => ?_) (.inl trivial)
  refine wp_orFatal_of (fun _ _ => ?_) (.inr rfl)
  refine wp_mono (wp_onEng_ck (fun e => nextHandshakeWith_ck false true mtFinished e) s) ?_ (fun _ _ h => .inr h)
  intro m s1 h1
  split
  · exact .inl ⟨rfl, h1⟩
  · rw [wp_bind]
    refine wp_check_of (fun _ => ?_) (.inr h1)
    rw [wp_bind]
    refine wp_mono (wp_advance_ck s1) ?_ (fun _ _ h => .inl h)
    intro _ s2 h2
    rw [wp_bind]
    refine wp_mono (wp_onEng_ck (fun e => sendAckRetransmittable_ck e) s2) ?_
      (fun _ _ h => .inr (h.trans (h2.trans h1)))
    intro _ s3 h3
    rw [wp_bind, wp_onEng']
    have hh := halted_stop (s := s) (s' := s3) (h3.trans (h2.trans h1))
    refine wp_mono (announceConnected_ok (env := env) releaseRetaining SSt.awaitApplicationData _) ?_ ?_
    · rintro new s' ⟨rfl, es, -, rfl⟩
      exact .inr ⟨rfl, hh⟩
    · rintro f s' ⟨rfl, -⟩
      exact .inl trivial
  · exact .inl trivial

/-- What the connect timer of a server is, if it would be `x` had nothing stopped it. -/
structure Kept (env : PEnv) (x : Cfg × Timeout) (s : Ses SSt) : Prop where
  cfg : s.eng.cfg = x.1
  off : over s.st = true → s.eng.timers.connect = .disabled
  auth : env.requireClientCert = false → s.authRequested = false ∧ s.st ≠ .sendCertificateRequest ∧
    s.st ≠ .awaitCertificate ∧ s.st ≠ .awaitCertificateVerify
  run : over s.st = false →
    env.requireClientCert = false ∨ (s.st ≠ .awaitCertificateVerify ∧ s.st ≠ .awaitFinished) →
    s.eng.timers.connect = x.2

theorem Kept.of_ck {x : Cfg × Timeout} {s s' : Ses SSt} (h : Kept env x s) (h1 : s'.eng.ck = s.eng.ck)
    (h2 : s'.authRequested = s.authRequested) (h3 : s'.st = s.st) : Kept env x s' := by
  have e1 : s'.eng.cfg = s.eng.cfg := congrArg Prod.fst h1
  have e2 : s'.eng.timers.connect = s.eng.timers.connect := congrArg Prod.snd h1
  refine ⟨e1.trans h.cfg, ?_, ?_, ?_⟩
  · rw [h3, e2]; exact h.off
  · rw [h3, h2]; exact h.auth
  · rw [h3, e2]; exact h.run

/-- Moving on within the handshake, or when it is over. -/
theorem Kept.move {x : Cfg × Timeout} {s s' : Ses SSt} (h : Kept env x s) (h1 : s'.eng.ck = s.eng.ck) (new : SSt)
    (ho : over new = over s.st)
    (ha : env.requireClientCert = false → s'.authRequested = false ∧ new ≠ .sendCertificateRequest ∧
      new ≠ .awaitCertificate ∧ new ≠ .awaitCertificateVerify)
    (hv : over new = false → env.requireClientCert = false ∨ (new ≠ .awaitCertificateVerify ∧ new ≠ .awaitFinished) →
      env.requireClientCert = false ∨ (s.st ≠ .awaitCertificateVerify ∧ s.st ≠ .awaitFinished)) :
    Kept env x { s' with st := new } := by
  have e1 : s'.eng.cfg = s.eng.cfg := congrArg Prod.fst h1
  have e2 : s'.eng.timers.connect = s.eng.timers.connect := congrArg Prod.snd h1
  refine ⟨e1.trans h.cfg, fun g => e2.trans (h.off (ho ▸ g)), ha, fun g g' => e2.trans (h.run (ho ▸ g) (hv g g'))⟩

theorem sendFinished_auth (s : Ses SSt) : wp (S13.sendFinished env) s
    (fun new _ => s.authRequested = false → new = .awaitFinished) (fun _ _ => True) := by
  unfold S13.sendFinished
  simp only [bind_eq, pure_eq]
  rw [wp_bind, wp_get]
  have hg : Gives (fun x => s.authRequested = false → x = SSt.awaitFinished)
      (M.bind (orFatal s.serverHs .invalidState : P SSt Bytes) fun secret =>
        M.bind (computeVerify env secret) fun v => M.bind (onEng (createHandshake env.toEnv mtFinished v)) fun _ =>
        M.bind (installApplication env) fun _ => M.bind (onEng (enablePeerEncryption env.toEnv)) fun _ =>
        M.pure (if s.authRequested then SSt.awaitCertificate else .awaitFinished)) := by
    refine .bind fun _ => .bind fun _ => .bind fun _ => .bind fun _ => .bind fun _ => .pure ?_
    intro h
    rw [if_neg (by rw [h]; exact Bool.false_ne_true)]
  exact wp_of (fun new s' he => hg s new (by rw [he])) (fun _ _ _ => trivial)

theorem sendEncryptedExtensions_gives :
    Gives (fun x => env.requireClientCert = false → x = SSt.sendCertificate) (S13.sendEncryptedExtensions env) := by
  unfold S13.sendEncryptedExtensions
  simp only [bind_eq, pure_eq]
  refine .bind fun _ => .bind fun _ => .pure fun h => ?_
  rw [if_neg (by rw [h]; exact Bool.false_ne_true)]

/-- Steps keep what is known of the connect timer. -/
theorem step_kept (x : Cfg × Timeout) (s : Ses SSt) (hk : Kept env x s) : wp (S13.step env s.st) s
    (fun new s' => s'.st = s.st ∧ Kept env x { s' with st := new })
    (fun f s' => s'.st = s.st ∧ (gone f ∨ Kept env x s')) := by
  by_cases hr : s.st = .sendCertificateRequest
  · -- only with client certificates
    have hauth : env.requireClientCert = true := by
      cases h : env.requireClientCert with
      | false => exact absurd hr (hk.auth h).2.1
      | true => rfl
    have hc := step_ck (env := env) s.st (by rw [hr]; rfl) s (fun _ _ => trivial)
    have hg := S13.step_succ env s.st s
    refine wp_of (fun new s' he => ?_) (fun f s' he => ?_) <;> rw [he] at hc
    · have hn := hg new (by rw [he])
      rw [hr] at hn
      have hn : new = .sendCertificate := by simpa [succ] using hn
      subst hn
      refine ⟨hc.2.2, hk.move hc.1 _ (by rw [hr]; rfl) (fun h => ?_) (fun _ _ => ?_)⟩
      · rw [hauth] at h; cases h
      · rw [hr]; exact .inr ⟨by decide, by decide⟩
    · refine ⟨hc.2.2, .inr ?_⟩
      have := hk.move hc.1 s.st rfl (fun h => by rw [hauth] at h; cases h) (fun _ h => h)
      rw [← hc.2.2] at this
      exact this
  have hA := step_asks (env := env) s.st hr
  by_cases hs : stops s.st = false
  · -- the timers are left alone
    have hc := step_ck (env := env) s.st hs s (fun _ _ => trivial)
    have ha := hA s
    have hg := S13.step_succ env s.st s
    refine wp_of (fun new s' he => ?_) (fun f s' he => ?_) <;> rw [he] at hc ha
    rotate_left
    · exact ⟨hc.2.2, .inr (hk.of_ck hc.1 ha.1 hc.2.2)⟩
    have hn := hg new (by rw [he])
    refine ⟨hc.2.2, ?_⟩
    have hauth : env.requireClientCert = false → s'.authRequested = false := fun h => Eq.trans ha.1 (hk.auth h).1
    have hee : s.st = .sendEncryptedExtensions → env.requireClientCert = false → new = .sendCertificate := by
      intro e
      rw [e] at he
      exact sendEncryptedExtensions_gives s new (congrArg Prod.fst he)
    have hsf : s.st = .sendFinished → s.authRequested = false → new = .awaitFinished := by
      intro e
      rw [e] at he
      have := sendFinished_auth (env := env) s
      unfold wp at this
      rw [show S13.sendFinished env s = (.ok new, s') from he] at this
      exact this
    refine hk.move hc.1 new ?_ (fun h => ⟨hauth h, ?_⟩) ?_
    · cases h : s.st <;> rw [h] at hn hs <;>
        (simp [succ] at hn; first | (rcases hn with hn | hn <;> subst hn <;> rfl) | (subst hn; rfl) | exact absurd hs (by decide))
    · have h0 := hk.auth h
      cases hst : s.st <;> rw [hst] at hn hs h0
      all_goals first
        | (have := hee hst h; subst this; exact ⟨by decide, by decide, by decide⟩)
        | (have := hsf hst h0.1; subst this; exact ⟨by decide, by decide, by decide⟩)
        | exact absurd hs (by decide)
        | exact absurd rfl h0.2.2.2
        | exact absurd hst hr
        | (simp [succ] at hn; first
            | (rcases hn with hn | hn <;> subst hn <;> exact ⟨by decide, by decide, by decide⟩)
            | (subst hn; exact ⟨by decide, by decide, by decide⟩))
    · intro h1 h2
      rcases h2 with h2 | h2
      · exact .inl h2
      · right
        cases hst : s.st <;> rw [hst] at hn hs
        all_goals first
          | exact absurd hs (by decide)
          | exact ⟨by decide, by decide⟩
          | (simp [succ] at hn; rcases hn with hn | hn <;> subst hn <;> first | exact absurd rfl h2.1 | exact absurd rfl h2.2)
  · -- the two states that stop them
    have ha := (hA).wp s
    cases hst : s.st <;> rw [hst] at hs <;> first | exact absurd rfl hs | skip
    case awaitCertificate =>
      rw [hst] at ha
      refine wp_mono (wp_and ha (awaitCertificate_ck (env := env) s)) ?_ ?_
      · rintro new s' ⟨⟨h1, h2⟩, h3⟩
        refine ⟨h2, ?_⟩
        rcases h3 with ⟨rfl, h3⟩ | ⟨hn, h3⟩
        · exact hk.of_ck h3 h1 hst.symm
        · have e1 : s'.eng.cfg = s.eng.cfg := congrArg Prod.fst h3
          have hreq : ¬ env.requireClientCert = false := fun h => (hk.auth h).2.2.1 hst
          refine ⟨e1.trans hk.cfg, ?_, fun h => absurd h hreq, ?_⟩
          · rcases hn with rfl | rfl <;> intro h <;> cases h
          · rintro - (h | h)
            · exact absurd h hreq
            · rcases hn with rfl | rfl
              · exact absurd rfl h.2
              · exact absurd rfl h.1
      · rintro f s' ⟨⟨h1, h2⟩, h3⟩
        refine ⟨h2, h3.imp id fun h3 => hk.of_ck h3 h1 (h2.trans hst.symm)⟩
    case awaitFinished =>
      rw [hst] at ha
      refine wp_mono (wp_and ha (awaitFinished_ck (env := env) s)) ?_ ?_
      · rintro new s' ⟨⟨h1, h2⟩, h3⟩
        refine ⟨h2, ?_⟩
        rcases h3 with ⟨rfl, h3⟩ | ⟨rfl, h3⟩
        · exact hk.of_ck h3 h1 hst.symm
        · have e1 : s'.eng.cfg = s.eng.cfg := congrArg Prod.fst h3
          exact ⟨e1.trans hk.cfg, fun _ => congrArg Prod.snd h3,
            fun h => ⟨Eq.trans h1 (hk.auth h).1, nofun, nofun, nofun⟩, fun h => by cases h⟩
      · rintro f s' ⟨⟨h1, h2⟩, h3⟩
        refine ⟨h2, h3.imp id fun h3 => hk.of_ck h3 h1 (h2.trans hst.symm)⟩

theorem kept_walk (env : PEnv) : Walk S13.role env (Kept env) where
  step x s := step_kept x s
  same _ _ _ h := h.of_ck
  tick x s n e h h3 := by
    have e1 : e.cfg = s.eng.cfg := congrArg Prod.fst h3
    have e2 : e.timers.connect = if s.eng.timers.connect = .unarmed then .armed (n + s.eng.cfg.handshakeTimeout)
        else s.eng.timers.connect := congrArg Prod.snd h3
    refine ⟨e1.trans h.cfg, fun g => ?_, h.auth, fun g g' => ?_⟩
    · exact e2.trans (by rw [h.off g]; rfl)
    · refine e2.trans ?_
      rw [h.run g g', h.cfg]; rfl
  shut x s e st h h2 h3 := by
    refine ⟨Eq.trans (congrArg Prod.fst h2) h.cfg, fun _ => congrArg Prod.snd h2, fun g => ⟨(h.auth g).1, ?_⟩, ?_⟩
    · rcases h3 with rfl | rfl <;> exact ⟨nofun, nofun, nofun⟩
    · rcases h3 with rfl | rfl <;> intro g <;> cases g

end S13
end Verif.E13

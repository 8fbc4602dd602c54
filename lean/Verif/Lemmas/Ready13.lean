import Verif.Lemmas.Fit13
/-!
# The steps of a DTLS 1.3 handshake do not panic
-/
namespace Verif.E13
open Verif Wire Window Timer Aead M
open Verif.E12 (Call SearchOk Bad bad_fail Ret)

/-- How a method of the session may fail. -/
abbrev SEnds {St : Type} (T : Ses St → Prop) : Fault → Ses St → Prop := Ends (fun s => s.eng.saved) T

/-- A session at a level: `hr` says whether a HelloRetryRequest went over the wire. -/
structure Ready {St : Type} (env : PEnv) (l : Lvl) (b : Nat) (hr : Bool) (s : Ses St) : Prop where
  fit : Fit env.toEnv l b s.eng
  random : s.random ≠ none
  retry : s.helloRetry = hr

section
variable {St : Type} {env : PEnv} {l : Lvl} {b : Nat} {hr : Bool} {α β : Type} {s : Ses St} {T : Ses St → Prop}

theorem Ready.eng {e : Eng} {l' : Lvl} {b' : Nat} (h : Ready env l b hr s) (g : Fit env.toEnv l' b' e) :
    Ready env l' b' hr { s with eng := e } := ⟨g, h.random, h.retry⟩

/-- An engine method that does not fail silently. -/
theorem wp_quiet {m : E α} {Q : α → Ses St → Prop} {G : Eng → Prop} (h : wp m s.eng (fun _ e => G e) (EEnds fun _ => False))
    (hq : ∀ a e, G e → Q a { s with eng := e }) : wp (onEng m) s Q (SEnds T) := by
  rw [wp_onEng]
  refine wp_mono h (fun a e g => hq a e g) fun f e g => ?_
  cases f with
  | transient => exact g.elim
  | fatal _ => trivial
  | panic => exact g
  | diverge => exact g.elim

/-- An engine method that may. -/
theorem wp_loud {m : E α} {Q : α → Ses St → Prop} {G : α → Eng → Prop} {H : Eng → Prop} (h : wp m s.eng G (EEnds H))
    (hq : ∀ a e, G a e → Q a { s with eng := e }) (ht : ∀ e, H e → T { s with eng := e }) : wp (onEng m) s Q (SEnds T) := by
  rw [wp_onEng]
  refine wp_mono h (fun a e g => hq a e g) fun f e g => ?_
  cases f with
  | transient => exact ht e g
  | fatal _ => trivial
  | panic => exact g
  | diverge => exact g.elim

theorem wp_suite {Q : Nat → Ses St → Prop} (h : Fit env.toEnv l b s.eng) (hk : l.known = true) (hq : ∀ cs, Q cs s) :
    wp (orPanic s.eng.suite) s Q (SEnds T) := by
  obtain ⟨cs, _, h1, _⟩ := h.tag hk
  rw [h1]
  exact hq cs

theorem computeVerify_ready (h : Ready env l b hr s) (hk : l.known = true) (x : Bytes) :
    wp (computeVerify env x) s (fun _ s' => Ready env l b hr s') (SEnds T) := by
  unfold computeVerify
  simp only [bind_eq, wp_bind, wp_get]
  refine wp_suite h.fit hk fun cs => ?_
  exact wp_orFatal_of (fun _ _ => h) trivial

theorem installHandshake_ready (h : Ready env l b hr s) (hk : l.known = true) (x : Bytes) :
    wp (installHandshake env x) s (fun _ s' => Ready env l b hr s') (SEnds T) := by
  unfold installHandshake
  simp only [bind_eq, wp_bind, wp_get, wp_modify]
  refine wp_suite h.fit hk fun cs => ?_
  refine wp_orFatal_of (fun a _ => ?_) trivial
  exact wp_quiet (h.fit.hsKeys hk _ _) fun _ _ g => ⟨g, h.random, h.retry⟩

theorem installApplication_ready (h : Ready env l b hr s) (hk : l.known = true) (hb : l.bare = true) :
    wp (installApplication env) s (fun _ s' => Ready env { l with bare := false } b hr s') (SEnds T) := by
  unfold installApplication
  simp only [bind_eq, wp_bind, wp_get]
  refine wp_orFatal_of (fun a _ => ?_) trivial
  refine wp_suite h.fit hk fun cs => ?_
  refine wp_orFatal_of (fun a _ => ?_) trivial
  simp only [wp_onEng']
  exact wp_quiet ((h.fit.exporter (some a.2.2)).appKeys hk hb _ _) fun _ _ g => ⟨g, h.random, h.retry⟩

theorem certificateVerifyBody_ready (h : Ready env l b hr s) (hk : l.known = true) (x : Bytes) :
    wp (certificateVerifyBody env x) s (fun _ s' => Ready env l b hr s') (SEnds T) := by
  unfold certificateVerifyBody
  simp only [bind_eq, wp_bind, wp_get, pure_eq]
  refine wp_suite h.fit hk fun cs => ?_
  rw [wp_drawTick]
  refine wp_orFatal_of (fun a _ => ?_) trivial
  exact h.eng h.fit.tick

theorem handshake_ready {t : UInt8} (h : Ready env l (b + 1) hr s) (hk : msgEpoch t = 0 ∨ l.known = true) (x : Bytes) :
    wp (onEng (createHandshake env.toEnv t x)) s (fun _ s' => Ready env l b hr s') (SEnds T) :=
  wp_quiet (h.fit.handshake x hk) fun _ _ g => h.eng g

theorem advance_ready (h : Ready env l (b + 1) hr s) :
    wp (onEng advancePeerSeq) s (fun _ s' => Ready env l b hr s') (SEnds T) :=
  wp_quiet h.fit.advance fun _ _ g => h.eng g

/-- Waiting for a message. -/
theorem take_ready {a i : Bool} {t : UInt8} (h : Ready env l b hr s)
    (ht : t ∈ [mtClientHello, mtServerHello, mtEncryptedExtensions, mtCertificate, mtCertificateRequest, mtCertificateVerify,
      mtFinished]) {Q : Option Body → Ses St → Prop}
    (hn : ∀ s', Ready env l b hr s' → Q none s')
    (hq : ∀ x s', x.kind = some t → Ready env l b hr s' → s.eng.transcript.length ≤ s'.eng.transcript.length → Q (some x) s')
    (hT : ∀ s', Ready env l b hr s' → T s') :
    wp (onEng (nextHandshakeWith env.toEnv a i t)) s Q (SEnds T) := by
  refine wp_loud (h.fit.taken ht) ?_ (fun e g => hT _ (h.eng g))
  rintro m e ⟨g1, g2, g3⟩
  cases m with
  | none => exact hn _ (h.eng g1)
  | some x => exact hq x _ (g3 x rfl) (h.eng g1) g2

theorem announceConnected_ready {f : Eng → Eng} {app : St} (hf : ∀ e, Fit env.toEnv l b e → Fit env.toEnv l b (f e))
    (h : Ready env l b hr s) (hk : l.known = true) :
    wp (announceConnected env f app) s (fun x s' => x = app ∧ Ready env l b hr s') (SEnds T) := by
  unfold announceConnected
  simp only [bind_eq, wp_bind, wp_get, wp_modify, pure_eq]
  have hlast : ∀ s' : Ses St, Ready env l b hr s' → app = app ∧ Ready env l b hr { s' with eng := f s'.eng } :=
    fun s' h => ⟨rfl, h.eng (hf _ h.fit)⟩
  have h0 : ∀ ev, Ready env l b hr { s with events := ev } := fun _ => ⟨h.fit, h.random, h.retry⟩
  split
  · exact hlast _ (h0 _)
  · simp only [wp_bind]
    refine wp_suite (s := { s with events := s.events ++ [.connected] }) h.fit hk fun cs => ?_
    split
    · split
      · exact hlast _ ⟨h.fit, h.random, h.retry⟩
      · exact hlast _ (h0 _)
    · exact hlast _ (h0 _)

theorem awaitCertificateVerify_ready {label : Bytes} {self next : St} {Q : St → Ses St → Prop} (h : Ready env l (b + 1) hr s)
    (hk : l.known = true) (h1 : ∀ s', Ready env l (b + 1) hr s' → Q self s') (h2 : ∀ s', Ready env l b hr s' → Q next s')
    (hT : ∀ s', Ready env l (b + 1) hr s' → T s') :
    wp (awaitCertificateVerify env label self next) s Q (SEnds T) := by
  unfold awaitCertificateVerify
  simp only [bind_eq, wp_bind, wp_get, pure_eq]
  refine wp_suite h.fit hk fun cs => ?_
  refine take_ready h (by decide) (fun s' g => h1 s' g) (fun x s' hx g _ => ?_) hT
  cases x <;> try (exact absurd hx (by simp only [Body.kind]; decide))
  simp only [wp_bind]
  refine wp_check_of (fun _ => ?_) trivial
  refine wp_check_of (fun _ => ?_) trivial
  refine wp_orFatal_of (fun a _ => ?_) trivial
  split
  · trivial
  · rw [wp_bind]
    refine wp_check_of (fun _ => ?_) trivial
    rw [wp_bind]
    exact wp_mono (advance_ready g) (fun _ s' g => h2 s' g) (fun _ _ h => h)

end

/-! ## The client -/

namespace C13

/-- Level of a state. -/
def lvl : CSt → Lvl
  | .sendClientHello | .awaitServerHello => ⟨false, true, true⟩
  | .awaitEncryptedExtensions | .awaitCertificateRequest | .awaitCertificate | .awaitCertificateVerify
  | .awaitFinished => ⟨true, true, false⟩
  | _ => ⟨true, false, false⟩

/-- How far the end of the handshake is. -/
def rank (hr : Bool) : CSt → Nat
  | .sendClientHello => if hr then 20 else 30
  | .awaitServerHello => if hr then 19 else 29
  | .awaitEncryptedExtensions => 15
  | .awaitCertificateRequest => 14
  | .awaitCertificate => 13
  | .awaitCertificateVerify => 12
  | .awaitFinished => 11
  | .sendCertificate => 10
  | .sendCertificateVerify => 9
  | .sendFinished => 8
  | .awaitApplicationData => 5
  | .halfClosedLocal => 1
  | .closed => 0

/-- A client in a state of the handshake. -/
def Good (env : PEnv) (st : CSt) (s : Ses CSt) : Prop := Ready env (lvl st) (rank s.helloRetry st) s.helloRetry s

theorem Good.of {env : PEnv} {st : CSt} {s : Ses CSt} {hr : Bool} {b : Nat} (h : Ready env (lvl st) b hr s) (hb : rank hr st ≤ b) :
    Good env st s := by
  have := h.retry
  subst this
  exact ⟨h.fit.less hb, h.random, rfl⟩

/-- The next state and that it is nearer to the end. -/
def Next (env : PEnv) (st : CSt) (hr : Bool) (st' : CSt) (s' : Ses CSt) : Prop :=
  Good env st' s' ∧ (st' ≠ st → rank s'.helloRetry st' < rank hr st ∧ st' ≠ .halfClosedLocal ∧ st' ≠ .closed)

theorem Next.of {env : PEnv} {st st' : CSt} {hr hr' : Bool} {b : Nat} {s' : Ses CSt} (h : Ready env (lvl st') b hr' s')
    (hb : rank hr' st' ≤ b) (hd : st' ≠ st → rank hr' st' < rank hr st)
    (hx : st' ≠ .halfClosedLocal ∧ st' ≠ .closed := by exact ⟨nofun, nofun⟩) : Next env st hr st' s' := by
  have := h.retry
  subst this
  exact ⟨.of h hb, fun h => ⟨hd h, hx⟩⟩

theorem Next.self {env : PEnv} {st : CSt} {hr hr' : Bool} {s' : Ses CSt} (h : Ready env (lvl st) (rank hr st) hr s') : Next env st hr' st s' :=
  ⟨.of h (Nat.le_refl _), fun h => absurd rfl h⟩

variable {env : PEnv} {s : Ses CSt} {hr : Bool}

theorem retryExtensions_ready {l : Lvl} {b : Nat} (xs : List (Nat × Bytes)) {T : Ses CSt → Prop} {s : Ses CSt} (h : Ready env l b hr s)
    (hT : ∀ s', Ready env l b hr s' → T s') : wp (retryExtensions env xs) s
      (fun _ s' => Ready env l b hr s' ∧ s'.eng = s.eng) (SEnds T) := by
  induction xs generalizing s with
  | nil => exact ⟨h, rfl⟩
  | cons x rest ih =>
    obtain ⟨t, d⟩ := x
    unfold retryExtensions
    simp only [bind_eq, pure_eq]
    split
    · split
      · exact ih ⟨h.fit, h.random, h.retry⟩
      · exact ih h
    · split
      · rw [wp_bind]
        refine wp_orTransient_of (fun _ _ => ?_) (hT _ h)
        exact ih ⟨h.fit, h.random, h.retry⟩
      · exact ih h

theorem encryptedExtensions_ready {l : Lvl} {b : Nat} (xs : List (Nat × Bytes)) {T : Ses CSt → Prop} {s : Ses CSt}
    (h : Ready env l b hr s) (hT : ∀ s', Ready env l b hr s' → T s') : wp (encryptedExtensions env xs) s
      (fun _ s' => Ready env l b hr s') (SEnds T) := by
  induction xs generalizing s with
  | nil => exact h
  | cons x rest ih =>
    obtain ⟨t, d⟩ := x
    unfold encryptedExtensions
    simp only [bind_eq, pure_eq]
    split
    · rw [wp_bind]
      refine wp_orTransient_of (fun _ _ => ?_) (hT _ h)
      split
      · exact ih h
      · exact ih ⟨h.fit, h.random, h.retry⟩
    · exact ih h

theorem sendClientHello_ok (h : Ready env (lvl .sendClientHello) (rank hr .sendClientHello) hr s) :
    wp (sendClientHello env) s (Next env .sendClientHello hr) (SEnds (Good env .sendClientHello)) := by
  obtain ⟨r, hr'⟩ := Option.ne_none_iff_exists'.mp h.random
  unfold sendClientHello
  simp only [bind_eq, wp_bind, wp_get, pure_eq, hr']
  show wp (orPanic (some r)) s _ _
  simp only [orPanic, wp_pure, wp_onEng']
  refine wp_orFatal_of (fun g _ => ?_) trivial
  refine wp_check_of (fun _ => ?_) trivial
  rw [wp_drawTick]
  refine wp_orFatal_of (fun pub _ => ?_) trivial
  rw [wp_modify]
  have hb : ∃ b, rank hr .sendClientHello = b + 1 ∧ rank hr .awaitServerHello = b := by cases hr <;> exact ⟨_, rfl, rfl⟩
  obtain ⟨b, hb1, hb2⟩ := hb
  rw [hb1] at h
  refine wp_mono (handshake_ready (b := b) (hr := hr) (l := lvl .sendClientHello) ?_ (.inl rfl) _) ?_ (fun _ _ h => h)
  · exact ⟨h.fit.begin.tick, h.random, h.retry⟩
  · intro _ s' g
    exact .of g (by omega) (fun _ => by omega)

theorem helloRetry_ok (hs : SuitesKnown env.toEnv) {n : Nat} {x : ServerHello}
    (h : Ready env (lvl .awaitServerHello) (rank hr .awaitServerHello) hr s) (hn : n ≤ s.eng.transcript.length) :
    wp (helloRetry env n x) s (Next env .awaitServerHello hr) (SEnds (Good env .awaitServerHello)) := by
  unfold helloRetry
  simp only [bind_eq, wp_bind, wp_get, pure_eq]
  split
  · trivial
  · rename_i hh
    have hh : hr = false := by rw [← h.retry]; simpa using hh
    subst hh
    simp only [wp_bind]
    refine wp_mono (retryExtensions_ready _ h fun s' g => .of g (Nat.le_refl _)) ?_ (fun _ _ h => h)
    rintro _ s1 ⟨g, ge⟩
    refine wp_check_of (fun hc => ?_) trivial
    rw [wp_setSuite]
    refine wp_check_of (fun _ => ?_) trivial
    have g1 := g.eng (g.fit.setSuite hs hc)
    refine wp_quiet (g1.fit.replace rfl (by show n ≤ s1.eng.transcript.length; rw [ge]; exact hn)) fun _ e2 g2 => ?_
    refine wp_mono (advance_ready (b := 28) (g1.eng g2)) (fun _ s3 g3 => ?_) (fun _ _ h => h)
    have g4 := g3.fit.retry.weaken (l' := lvl .sendClientHello) (by decide) (by decide) (by decide)
    exact .of (hr' := true) (b := 28) ⟨g4, g3.random, rfl⟩ (by decide) (by decide)

theorem serverHello_ok (hs : SuitesKnown env.toEnv) (hse : SearchOk env.search) {x : ServerHello}
    (h : Ready env (lvl .awaitServerHello) (rank hr .awaitServerHello) hr s) :
    wp (serverHello env x) s (Next env .awaitServerHello hr) (SEnds (Good env .awaitServerHello)) := by
  unfold serverHello
  simp only [bind_eq, wp_bind, wp_get, pure_eq]
  refine wp_check_of (fun _ => ?_) trivial
  refine wp_check_of (fun _ => ?_) trivial
  refine wp_check_of (fun _ => ?_) trivial
  refine wp_check_of (fun hc => ?_) trivial
  rw [wp_setSuite, wp_modify]
  refine wp_orFatal_of (fun exts _ => ?_) trivial
  refine wp_check_of (fun _ => ?_) trivial
  refine wp_orFatal_of (fun gp _ => ?_) trivial
  rw [wp_modify]
  refine wp_orFatal_of (fun kx _ => ?_) trivial
  refine wp_check_of (fun _ => ?_) trivial
  refine wp_orFatal_of (fun sh _ => ?_) trivial
  have hb : ∃ b, rank hr .awaitServerHello = b + 1 ∧ 15 ≤ b := by cases hr <;> exact ⟨_, rfl, by decide⟩
  obtain ⟨b, hb1, hb2⟩ := hb
  rw [hb1] at h
  have g := h.fit.setSuite hs hc
  refine wp_mono (installHandshake_ready (l := ⟨true, true, true⟩) (b := b + 1) (hr := hr) ?_ rfl _) ?_ (fun _ _ h => h)
  · exact ⟨g, h.random, h.retry⟩
  intro _ s1 g1
  refine wp_quiet (g1.fit.enable hse rfl rfl) fun _ e2 g2 => ?_
  refine wp_mono (advance_ready (b := b) (g1.eng g2)) (fun _ s3 g3 => ?_) (fun _ _ h => h)
  exact .of g3 hb2 (fun _ => by rw [hb1]; show 15 < b + 1; omega)

theorem step_ok (hs : SuitesKnown env.toEnv) (hse : SearchOk env.search) (st : CSt) (hst : rank false st ≥ 6)
    (h : Ready env (lvl st) (rank hr st) hr s) :
    wp (step env st) s (Next env st hr) (SEnds (Good env st)) := by
  have hT : ∀ s', Ready env (lvl st) (rank hr st) hr s' → Good env st s' := fun s' g => .of g (Nat.le_refl _)
  cases st
  case sendClientHello => exact sendClientHello_ok h
  case awaitServerHello =>
    unfold step awaitServerHello
    simp only [bind_eq, wp_bind, wp_get, pure_eq]
    refine take_ready h (by decide) (fun s' g => .self g) (fun x s' hx g hl => ?_) hT
    cases x <;> try (exact absurd hx (by simp only [Body.kind]; decide))
    simp only
    split
    · exact helloRetry_ok hs g hl
    · exact serverHello_ok hs hse g
  case awaitEncryptedExtensions =>
    unfold step awaitEncryptedExtensions
    simp only [bind_eq, wp_bind, pure_eq]
    refine take_ready h (by decide) (fun s' g => .self g) (fun x s' hx g hl => ?_) hT
    cases x <;> try (exact absurd hx (by simp only [Body.kind]; decide))
    simp only [wp_bind]
    refine wp_mono (encryptedExtensions_ready _ g hT) (fun _ s1 g1 => ?_) (fun _ _ h => h)
    exact wp_mono (advance_ready (b := 14) g1) (fun _ s2 g2 => .of g2 (by simp [rank]) (fun _ => by simp [rank])) (fun _ _ h => h)
  case awaitCertificateRequest =>
    unfold step awaitCertificateRequest
    simp only [bind_eq, wp_bind, wp_get, pure_eq]
    split
    · exact .of h (by simp [rank]) (fun _ => by simp [rank])
    · rw [wp_bind]
      refine take_ready h (by decide) (fun s' g => .self g) (fun x s' hx g hl => ?_) hT
      cases x <;> try (exact absurd hx (by simp only [Body.kind]; decide))
      simp only [wp_bind]
      refine wp_orFatal_of (fun c _ => ?_) trivial
      rw [wp_modify]
      exact wp_mono (advance_ready (b := 13) (hr := hr) (l := lvl .awaitCertificateRequest) ⟨g.fit, g.random, g.retry⟩)
        (fun _ s2 g2 => .of g2 (by simp [rank]) (fun _ => by simp [rank])) (fun _ _ h => h)
  case awaitCertificate =>
    unfold step awaitCertificate
    simp only [bind_eq, wp_bind, pure_eq]
    refine take_ready h (by decide) (fun s' g => .self g) (fun x s' hx g hl => ?_) hT
    cases x <;> try (exact absurd hx (by simp only [Body.kind]; decide))
    simp only [wp_bind]
    refine wp_check_of (fun _ => ?_) trivial
    refine wp_check_of (fun _ => ?_) trivial
    rw [wp_modify]
    exact wp_mono (advance_ready (b := 12) (hr := hr) (l := lvl .awaitCertificate) ⟨g.fit, g.random, g.retry⟩)
      (fun _ s2 g2 => .of g2 (by simp [rank]) (fun _ => by simp [rank])) (fun _ _ h => h)
  case awaitCertificateVerify =>
    exact awaitCertificateVerify_ready (b := 11) h rfl (fun s' g => .self g) (fun s' g => .of g (by simp [rank]) (fun _ => by simp [rank])) hT
  case awaitFinished =>
    unfold step awaitFinished
    simp only [bind_eq, wp_bind, wp_get, pure_eq]
    refine wp_orFatal_of (fun sec _ => ?_) trivial
    refine wp_mono (computeVerify_ready h rfl _) (fun v s1 g1 => ?_) (fun _ _ h => h)
    refine take_ready g1 (by decide) (fun s' g => .self g) (fun x s' hx g hl => ?_) hT
    cases x <;> try (exact absurd hx (by simp only [Body.kind]; decide))
    simp only [wp_bind]
    refine wp_check_of (fun _ => ?_) trivial
    refine wp_mono (advance_ready (b := 10) g) (fun _ s2 g2 => ?_) (fun _ _ h => h)
    refine wp_mono (installApplication_ready g2 rfl rfl) (fun _ s3 g3 => ?_) (fun _ _ h => h)
    split
    · exact .of g3 (by simp [rank]) (fun _ => by simp [rank])
    · exact .of g3 (by simp [rank]) (fun _ => by simp [rank])
  case sendCertificate =>
    unfold step sendCertificate
    simp only [bind_eq, wp_bind, wp_get, pure_eq, wp_onEng']
    split
    · rw [wp_bind]
      exact wp_mono (handshake_ready (b := 9) (h.eng h.fit.begin) (.inr rfl) _)
        (fun _ s2 g2 => .of g2 (by simp [rank]) (fun _ => by simp [rank])) (fun _ _ h => h)
    · rw [wp_bind]
      exact wp_mono (handshake_ready (b := 9) (h.eng h.fit.begin) (.inr rfl) _)
        (fun _ s2 g2 => .of g2 (by simp [rank]) (fun _ => by simp [rank])) (fun _ _ h => h)
  case sendCertificateVerify =>
    unfold step sendCertificateVerify
    simp only [bind_eq, wp_bind, pure_eq]
    refine wp_mono (certificateVerifyBody_ready h rfl _) (fun v s1 g1 => ?_) (fun _ _ h => h)
    exact wp_mono (handshake_ready (b := 8) g1 (.inr rfl) _)
      (fun _ s2 g2 => .of g2 (by simp [rank]) (fun _ => by simp [rank])) (fun _ _ h => h)
  case sendFinished =>
    have hlast : ∀ s1 : Ses CSt, Ready env (lvl .sendFinished) 8 hr s1 →
        wp (M.bind (orFatal s.clientHs .invalidState) fun secret => M.bind (computeVerify env secret) fun v =>
          M.bind (onEng (createHandshake env.toEnv mtFinished v)) fun _ =>
            announceConnected env releaseAppData .awaitApplicationData) s1
          (Next env .sendFinished hr) (SEnds (Good env .sendFinished)) := by
      intro s1 g
      simp only [wp_bind]
      refine wp_orFatal_of (fun sec _ => ?_) trivial
      refine wp_mono (computeVerify_ready g rfl _) (fun v s2 g2 => ?_) (fun _ _ h => h)
      refine wp_mono (handshake_ready (b := 7) g2 (.inr rfl) _) (fun v s3 g3 => ?_) (fun _ _ h => h)
      refine wp_mono (announceConnected_ready (fun _ h => h.release) g3 rfl) ?_ (fun _ _ h => h)
      rintro _ s4 ⟨rfl, g4⟩
      exact .of g4 (by simp [rank]) (fun _ => by simp [rank])
    unfold step sendFinished
    simp only [bind_eq, wp_bind, wp_get, pure_eq]
    have h8 : Ready env (lvl .sendFinished) 8 hr s := h
    split
    · exact hlast s h8
    · rw [wp_bind, wp_onEng']
      exact hlast _ (h8.eng h8.fit.begin)
  case awaitApplicationData => exact absurd hst (by decide)
  case halfClosedLocal => exact absurd hst (by decide)
  case closed => exact absurd hst (by decide)

end C13

/-! ## The server -/

namespace S13

/-- Level of a state. -/
def lvl : SSt → Lvl
  | .awaitClientHello => ⟨false, true, true⟩
  | .sendServerHello | .sendEncryptedExtensions | .sendCertificateRequest | .sendCertificate | .sendCertificateVerify
  | .sendFinished => ⟨true, true, true⟩
  | _ => ⟨true, false, false⟩

/-- How far the end of the handshake is. -/
def rank (hr : Bool) : SSt → Nat
  | .awaitClientHello => if hr then 20 else 30
  | .sendServerHello => 16
  | .sendEncryptedExtensions => 15
  | .sendCertificateRequest => 14
  | .sendCertificate => 13
  | .sendCertificateVerify => 12
  | .sendFinished => 11
  | .awaitCertificate => 10
  | .awaitCertificateVerify => 9
  | .awaitFinished => 8
  | .awaitApplicationData => 5
  | .halfClosedLocal => 1
  | .closed => 0

/-- What the state needs in `extension_data`. -/
def Packed (st : SSt) (x : Bytes) : Prop :=
  st = .sendServerHello → ∃ g pub, x = packShare g pub ∧ pub.length < 2 ^ 32

/-- A server in a state of the handshake. -/
def Good (env : PEnv) (st : SSt) (s : Ses SSt) : Prop :=
  Ready env (lvl st) (rank s.helloRetry st) s.helloRetry s ∧ Packed st s.extData

theorem Good.of {env : PEnv} {st : SSt} {s : Ses SSt} {hr : Bool} {b : Nat} (h : Ready env (lvl st) b hr s) (hb : rank hr st ≤ b)
    (hp : Packed st s.extData) : Good env st s := by
  have := h.retry
  subst this
  exact ⟨⟨h.fit.less hb, h.random, rfl⟩, hp⟩

/-- The next state and that it is nearer to the end. -/
def Next (env : PEnv) (st : SSt) (hr : Bool) (st' : SSt) (s' : Ses SSt) : Prop :=
  Good env st' s' ∧ (st' ≠ st → rank s'.helloRetry st' < rank hr st ∧ st' ≠ .halfClosedLocal ∧ st' ≠ .closed)

theorem Next.of {env : PEnv} {st st' : SSt} {hr hr' : Bool} {b : Nat} {s' : Ses SSt} (h : Ready env (lvl st') b hr' s')
    (hb : rank hr' st' ≤ b) (hd : st' ≠ st → rank hr' st' < rank hr st)
    (hp : Packed st' s'.extData := by exact nofun)
    (hx : st' ≠ .halfClosedLocal ∧ st' ≠ .closed := by exact ⟨nofun, nofun⟩) : Next env st hr st' s' := by
  have := h.retry
  subst this
  exact ⟨.of h hb hp, fun h => ⟨hd h, hx⟩⟩

theorem Next.self {env : PEnv} {st : SSt} {hr hr' : Bool} {s' : Ses SSt} (h : Ready env (lvl st) (rank hr st) hr s')
    (hp : Packed st s'.extData := by exact nofun) : Next env st hr' st s' :=
  ⟨.of h (Nat.le_refl _) hp, fun h => absurd rfl h⟩

variable {env : PEnv} {s : Ses SSt} {hr : Bool}

theorem wp_hmac (hm : ∀ k d, env.hmac k d ≠ none) {k d : Bytes} {Q : Bytes → Ses SSt → Prop} {F : Fault → Ses SSt → Prop}
    (h : ∀ c, Q c s) : wp (orPanic (env.hmac k d)) s Q F := by
  obtain ⟨c, hc⟩ := Option.ne_none_iff_exists'.mp (hm k d)
  rw [hc]
  exact h c

theorem clientExtensions_ready (xs : List (Nat × Bytes)) (x : ChExts) {T : Ses SSt → Prop} (hT : T s) : wp (clientExtensions env xs x) s (fun _ s' => s' = s) (SEnds T) := by
  induction xs generalizing x with
  | nil => exact rfl
  | cons y rest ih =>
    obtain ⟨t, d⟩ := y
    unfold clientExtensions
    simp only [bind_eq, pure_eq]
    split
    · rw [wp_bind]
      exact wp_orTransient_of (fun _ _ => ih _) hT
    · split
      · rw [wp_bind]
        refine wp_orTransient_of (fun _ _ => ?_) hT
        split
        · exact hT
        · exact ih _
      · split
        · rw [wp_bind]
          exact wp_orTransient_of (fun _ _ => ih _) hT
        · split
          · rw [wp_bind]
            exact wp_orTransient_of (fun _ _ => ih _) hT
          · split
            · simp only [wp_bind]
              refine wp_orTransient_of (fun _ _ => ?_) hT
              exact wp_check_of (fun _ => ih _) trivial
            · exact ih _

theorem sendRetry_ok (hs : SuitesKnown env.toEnv) {suite : Nat} (hc : env.allowed.contains suite = true) {c : Bytes} {g : Option Nat}
    (h : Ready env (lvl .awaitClientHello) (rank false .awaitClientHello) false s) :
    wp (sendRetry env suite c g) s (Next env .awaitClientHello false) (SEnds (Good env .awaitClientHello)) := by
  unfold sendRetry
  simp only [bind_eq, wp_bind, wp_get, pure_eq, wp_setSuite]
  have h1 := h.eng (h.fit.setSuite hs hc)
  refine wp_quiet (h1.fit.replace rfl (Nat.le_refl _)) fun _ e2 g2 => ?_
  have h2 := h1.eng g2
  rw [wp_onEng']
  refine wp_mono (handshake_ready (b := 29) (h2.eng h2.fit.begin) (.inl rfl) _) (fun _ s3 h3 => ?_) (fun _ _ h => h)
  refine wp_mono (advance_ready (b := 28) h3) (fun _ s4 h4 => ?_) (fun _ _ h => h)
  have h5 := h4.fit.retry.weaken (l' := lvl .awaitClientHello) (by decide) (by decide) (by decide)
  exact .of (hr' := true) (b := 28) ⟨h5, h4.random, rfl⟩ (by decide) (by decide)

theorem acceptClientHello_ok (hs : SuitesKnown env.toEnv) (hkx : ∀ n g pub, env.kxStart n g = some pub → pub.length < 2 ^ 32)
    {suite : Nat} (hc : env.allowed.contains suite = true) {x : ChExts} {share : Nat × Bytes}
    (h : Ready env (lvl .awaitClientHello) (rank hr .awaitClientHello) hr s) :
    wp (acceptClientHello env suite x share) s (Next env .awaitClientHello hr) (SEnds (Good env .awaitClientHello)) := by
  unfold acceptClientHello
  simp only [bind_eq, wp_bind, pure_eq]
  refine wp_check_of (fun _ => ?_) trivial
  rw [wp_drawTick]
  refine wp_orFatal_of (fun pub hp => ?_) trivial
  rw [wp_modify]
  refine wp_orFatal_of (fun sec _ => ?_) trivial
  rw [wp_modify, wp_setSuite]
  have hb : ∃ b, rank hr .awaitClientHello = b + 1 ∧ 16 ≤ b := by cases hr <;> exact ⟨_, rfl, by decide⟩
  obtain ⟨b, hb1, hb2⟩ := hb
  rw [hb1] at h
  rw [wp_onEng]
  have g := (h.fit.tick.setSuite hs hc).advance
  refine wp_mono g (fun _ e2 g2 => ?_) (fun f e2 hf => ?_)
  · refine .of (b := b) (hr' := hr) ⟨g2, h.random, h.retry⟩ hb2 (fun _ => by rw [hb1]; show 16 < b + 1; omega) ?_
    exact fun _ => ⟨share.1, pub, rfl, hkx _ _ _ hp⟩
  · cases f with
    | transient => exact hf.elim
    | fatal _ => trivial
    | panic => exact hf
    | diverge => exact hf.elim

theorem chooseShare_ok (hs : SuitesKnown env.toEnv) (hkx : ∀ n g pub, env.kxStart n g = some pub → pub.length < 2 ^ 32)
    (hm : ∀ k d, env.hmac k d ≠ none) {suite : Nat} (hc : env.allowed.contains suite = true) {x : ChExts} {r : Bytes}
    (h : Ready env (lvl .awaitClientHello) (rank hr .awaitClientHello) hr s) :
    wp (chooseShare env suite r x) s (Next env .awaitClientHello hr) (SEnds (Good env .awaitClientHello)) := by
  unfold chooseShare
  split
  · exact acceptClientHello_ok hs hkx hc h
  · split
    · simp only [bind_eq, wp_bind, wp_get]
      refine wp_check_of (fun hh => ?_) trivial
      have hh : hr = false := by rw [← h.retry]; simpa using hh
      subst hh
      exact wp_hmac hm fun c => sendRetry_ok hs hc h
    · trivial

theorem checkCookie_ok (hs : SuitesKnown env.toEnv) (hkx : ∀ n g pub, env.kxStart n g = some pub → pub.length < 2 ^ 32)
    (hm : ∀ k d, env.hmac k d ≠ none) {n suite : Nat} (hc : env.allowed.contains suite = true) {x : ChExts} {r : Bytes}
    (h : Ready env (lvl .awaitClientHello) (rank hr .awaitClientHello) hr s) :
    wp (checkCookie env n suite r x) s (Next env .awaitClientHello hr) (SEnds (Good env .awaitClientHello)) := by
  unfold checkCookie
  split
  · simp only [bind_eq, wp_bind]
    refine wp_hmac hm fun c => ?_
    exact wp_check_of (fun _ => chooseShare_ok hs hkx hm hc h) trivial
  · split
    · simp only [bind_eq, wp_bind, pure_eq]
      refine wp_hmac hm fun c => ?_
      rw [wp_get]
      split
      · rw [wp_bind, wp_onEng']
        exact .self (hr := hr) (h.eng (h.fit.transcript _))
      · rename_i hh
        have hh : hr = false := by rw [← h.retry]; simpa using hh
        subst hh
        exact sendRetry_ok hs hc h
    · exact chooseShare_ok hs hkx hm hc h

theorem clientHello_ok (hs : SuitesKnown env.toEnv) (hkx : ∀ n g pub, env.kxStart n g = some pub → pub.length < 2 ^ 32)
    (hm : ∀ k d, env.hmac k d ≠ none) {n : Nat} {ch : ClientHello}
    (h : Ready env (lvl .awaitClientHello) (rank hr .awaitClientHello) hr s) :
    wp (clientHello env n ch) s (Next env .awaitClientHello hr) (SEnds (Good env .awaitClientHello)) := by
  unfold clientHello
  simp only [bind_eq, wp_bind, wp_get]
  refine wp_check_of (fun _ => ?_) trivial
  refine wp_check_of (fun _ => ?_) trivial
  refine wp_check_of (fun _ => ?_) trivial
  refine wp_mono (clientExtensions_ready _ _ (.of h (Nat.le_refl _) nofun)) ?_ (fun _ _ h => h)
  rintro x _ rfl
  refine wp_check_of (fun _ => ?_) trivial
  refine wp_orFatal_of (fun suite hsu => ?_) trivial
  rw [wp_modify]
  exact checkCookie_ok hs hkx hm (selectSuite_allowed hsu) ⟨h.fit, h.random, h.retry⟩

theorem packShare_length (g : Nat) (pub : Bytes) : (packShare g pub).length = pub.length + 10 := by
  simp [packShare, beBytes_length]

theorem packShare_take (g : Nat) (pub : Bytes) : (packShare g pub).take ((packShare g pub).length - 10) = pub := by
  rw [packShare_length]
  simp [packShare]

theorem packShare_drop (g : Nat) (pub : Bytes) :
    (packShare g pub).drop ((packShare g pub).length - 10) = beBytes 2 g ++ beBytes 4 0 ++ beBytes 4 pub.length := by
  rw [packShare_length]
  simp [packShare]

theorem sendServerHello_ok (h : Ready env (lvl .sendServerHello) 16 hr s) (hp : Packed .sendServerHello s.extData) :
    wp (sendServerHello env) s (Next env .sendServerHello hr) (SEnds (Good env .sendServerHello)) := by
  obtain ⟨r, hr'⟩ := Option.ne_none_iff_exists'.mp h.random
  obtain ⟨g, pub, he, hl⟩ := hp rfl
  unfold sendServerHello
  simp only [bind_eq, wp_bind, wp_get, pure_eq, hr', he, packShare_take, packShare_drop]
  show wp (orPanic (some r)) s _ _
  simp only [orPanic, wp_pure]
  rw [if_neg (by rw [packShare_length]; omega)]
  simp only [wp_bind, wp_modify, wp_onEng']
  have h1 : ∀ x, Ready env (lvl .sendServerHello) 16 hr { s with extData := x, eng := flightBegin env.toEnv s.eng } :=
    fun x => ⟨h.fit.begin, h.random, h.retry⟩
  obtain ⟨cs, _, hcs, _⟩ := h.fit.tag rfl
  rw [hcs]
  simp only [orPanic, wp_pure]
  have e1 : (List.take 4 (List.drop 2 (beBytes 2 g ++ beBytes 4 0 ++ beBytes 4 pub.length))) = beBytes 4 0 := by
    rw [List.append_assoc, List.drop_left' (beBytes_length 2 g), List.take_left' (beBytes_length 4 0)]
  have e2 : (List.take 4 (List.drop 6 (beBytes 2 g ++ beBytes 4 0 ++ beBytes 4 pub.length))) = beBytes 4 pub.length := by
    rw [List.drop_left' (by simp [beBytes_length]), List.take_of_length_le (by simp [beBytes_length])]
  rw [e1, e2, ofBe_beBytes_of_lt (v := 0) (by decide), ofBe_beBytes_of_lt (v := pub.length) hl, if_neg (by omega)]
  simp only [wp_bind]
  refine wp_mono (handshake_ready (b := 15) (h1 _) (.inl rfl) _) (fun _ s2 g2 => ?_) (fun _ _ h => h)
  refine wp_orFatal_of (fun sec _ => ?_) trivial
  rw [wp_modify]
  refine wp_mono (installHandshake_ready (l := lvl .sendServerHello) (b := 15) (hr := hr) ?_ rfl _) ?_ (fun _ _ h => h)
  · exact ⟨g2.fit, g2.random, g2.retry⟩
  · intro _ s3 g3
    exact .of g3 (by simp [rank]) (fun _ => by simp [rank])

theorem step_ok (hs : SuitesKnown env.toEnv) (hse : SearchOk env.search)
    (hkx : ∀ n g pub, env.kxStart n g = some pub → pub.length < 2 ^ 32) (hm : ∀ k d, env.hmac k d ≠ none) (st : SSt)
    (hst : rank false st ≥ 6) (h : Ready env (lvl st) (rank hr st) hr s) (hp : Packed st s.extData) :
    wp (step env st) s (Next env st hr) (SEnds (Good env st)) := by
  have hT : st ≠ .sendServerHello → ∀ s', Ready env (lvl st) (rank hr st) hr s' → Good env st s' :=
    fun hn s' g => .of g (Nat.le_refl _) fun h => absurd h hn
  cases st
  case awaitClientHello =>
    unfold step awaitClientHello
    simp only [bind_eq, wp_bind, wp_get, pure_eq]
    refine take_ready h (by decide) (fun s' g => .self g) (fun x s' hx g hl => ?_) (hT nofun)
    cases x <;> try (exact absurd hx (by simp only [Body.kind]; decide))
    exact clientHello_ok hs hkx hm g
  case sendServerHello => exact sendServerHello_ok h hp
  case sendEncryptedExtensions =>
    unfold step sendEncryptedExtensions
    simp only [bind_eq, wp_bind, wp_get, pure_eq]
    refine wp_mono (handshake_ready (b := 14) h (.inr rfl) _) (fun _ s2 g2 => ?_) (fun _ _ h => h)
    split
    · exact .of g2 (by simp [rank]) (fun _ => by simp [rank])
    · exact .of g2 (by simp [rank]) (fun _ => by simp [rank])
  case sendCertificateRequest =>
    unfold step sendCertificateRequest
    simp only [bind_eq, wp_bind, wp_modify, pure_eq]
    refine wp_mono (handshake_ready (b := 13) h (.inr rfl) _) (fun _ s2 g2 => ?_) (fun _ _ h => h)
    exact .of (b := 13) (hr' := hr) ⟨g2.fit, g2.random, g2.retry⟩ (by simp [rank]) (fun _ => by simp [rank])
  case sendCertificate =>
    unfold step sendCertificate
    simp only [bind_eq, wp_bind, pure_eq]
    refine wp_mono (handshake_ready (b := 12) h (.inr rfl) _) (fun _ s2 g2 => ?_) (fun _ _ h => h)
    exact .of g2 (by simp [rank]) (fun _ => by simp [rank])
  case sendCertificateVerify =>
    unfold step sendCertificateVerify
    simp only [bind_eq, wp_bind, pure_eq]
    refine wp_mono (certificateVerifyBody_ready h rfl _) (fun v s1 g1 => ?_) (fun _ _ h => h)
    exact wp_mono (handshake_ready (b := 11) g1 (.inr rfl) _)
      (fun _ s2 g2 => .of g2 (by simp [rank]) (fun _ => by simp [rank])) (fun _ _ h => h)
  case sendFinished =>
    unfold step sendFinished
    simp only [bind_eq, wp_bind, wp_get, pure_eq]
    refine wp_orFatal_of (fun sec _ => ?_) trivial
    refine wp_mono (computeVerify_ready h rfl _) (fun v s1 g1 => ?_) (fun _ _ h => h)
    refine wp_mono (handshake_ready (b := 10) g1 (.inr rfl) _) (fun v s2 g2 => ?_) (fun _ _ h => h)
    refine wp_mono (installApplication_ready g2 rfl rfl) (fun _ s3 g3 => ?_) (fun _ _ h => h)
    refine wp_quiet (g3.fit.enable hse rfl rfl) fun _ e4 g4 => ?_
    have g5 := g3.eng g4
    split
    · exact .of g5 (by simp [rank]) (fun _ => by simp [rank])
    · exact .of g5 (by simp [rank]) (fun _ => by simp [rank])
  case awaitCertificate =>
    unfold step awaitCertificate
    simp only [bind_eq, wp_bind, pure_eq]
    refine take_ready h (by decide) (fun s' g => .self g) (fun x s' hx g hl => ?_) (hT nofun)
    cases x <;> try (exact absurd hx (by simp only [Body.kind]; decide))
    rename_i c certs
    cases certs with
    | nil =>
      simp only [wp_bind]
      refine wp_mono (advance_ready (b := 9) g) (fun _ s2 g2 => ?_) (fun _ _ h => h)
      rw [wp_onEng']
      exact .of (g2.eng g2.fit.stop) (by simp [rank]) (fun _ => by simp [rank])
    | cons d certs =>
      simp only [wp_bind, wp_modify, wp_onEng']
      refine wp_mono (advance_ready (env := env) (b := 9) (hr := hr) (l := lvl .awaitCertificate) ?_) ?_ (fun _ _ h => h)
      · exact ⟨g.fit.stop, g.random, g.retry⟩
      · intro _ s2 g2
        exact .of g2 (by simp [rank]) (fun _ => by simp [rank])
  case awaitCertificateVerify =>
    exact awaitCertificateVerify_ready (b := 8) h rfl (fun s' g => .self g)
      (fun s' g => .of g (by simp [rank]) (fun _ => by simp [rank])) (hT nofun)
  case awaitFinished =>
    unfold step awaitFinished
    simp only [bind_eq, wp_bind, wp_get, pure_eq]
    refine wp_orFatal_of (fun sec _ => ?_) trivial
    refine wp_mono (computeVerify_ready h rfl _) (fun v s1 g1 => ?_) (fun _ _ h => h)
    refine take_ready g1 (by decide) (fun s' g => .self g) (fun x s' hx g hl => ?_) (hT nofun)
    cases x <;> try (exact absurd hx (by simp only [Body.kind]; decide))
    simp only [wp_bind]
    refine wp_check_of (fun _ => ?_) trivial
    refine wp_mono (advance_ready (b := 7) g) (fun _ s2 g2 => ?_) (fun _ _ h => h)
    refine wp_quiet (g2.fit.ackFinal rfl) fun _ e3 g3 => ?_
    rw [wp_onEng']
    have g4 := g2.eng g3
    refine wp_mono (announceConnected_ready (fun _ h => h.retain) (g4.eng g4.fit.stop) rfl) ?_ (fun _ _ h => h)
    rintro _ s4 ⟨rfl, g4⟩
    exact .of g4 (by simp [rank]) (fun _ => by simp [rank])
  case awaitApplicationData => exact absurd hst (by decide)
  case halfClosedLocal => exact absurd hst (by decide)
  case closed => exact absurd hst (by decide)

end S13
end Verif.E13

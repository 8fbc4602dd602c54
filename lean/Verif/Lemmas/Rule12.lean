import Verif.Lemmas.Shown12
/-!
# The state graphs of the DTLS 1.2 client and server
-/
namespace Verif.E12
open Verif Wire Window Timer Aead M

section
variable {St : Type} {env : PEnv}

/-- Waiting for change_cipher_spec: nothing happens, or encryption of the peer's records is on. -/
theorem awaitChangeCipherSpec_seen (a b : St) (s : Ses St) :
    wp (awaitChangeCipherSpec env a b) s
      (fun new s' => s'.st = s.st ∧ ((new = a ∧ shown s' = shown s) ∨
        (new = b ∧ ∃ c, (s.eng.closeRecv = true → c = true) ∧
          shown s' = { shown s with peerEnc := true, closeRecv := c })))
      (fun _ s' => s'.st = s.st ∧ (shown s' = shown s ∨ ∃ c, (s.eng.closeRecv = true → c = true) ∧
          shown s' = { shown s with peerEnc := true, closeRecv := c })) := by
  have hp := shown_proj (St := St)
  unfold awaitChangeCipherSpec
  simp only [bind_eq, pure_eq, wp_bind]
  have h1 := Keeps.nextRecord hp ctCCS s
  refine wp_mono (wp_state (R := fun s' => shown s' = shown s ∧ s'.st = s.st) |>.mpr ⟨h1, rfl⟩) ?_ ?_
  · rintro got s1 ⟨hs1, hst1⟩
    split
    · simp only [wp_bind, wp_onEng', wp_onEng]
      have h2 := Keeps.dropCcs hp s1
      have h3 : shown { s1 with eng := dropPendingCcs s1.eng } = shown s := h2.trans hs1
      have hc1 : (dropPendingCcs s1.eng).closeRecv = s.eng.closeRecv := by
        have := congrArg Shown.closeRecv h3
        exact this
      obtain ⟨c, hc, he⟩ := (enablePeer_arrive env.toEnv (dropPendingCcs s1.eng)).shown
        (s := { s1 with eng := { dropPendingCcs s1.eng with peerEnc := true } })
      have he' : shown { s1 with eng := (enablePeerEncryption env.toEnv (dropPendingCcs s1.eng)).2 } =
          { shown s with peerEnc := true, closeRecv := c } := by
        refine he.trans ?_
        have : shown { s1 with eng := { dropPendingCcs s1.eng with peerEnc := true } } =
            { shown s with peerEnc := true } := by
          rw [← h3]; rfl
        rw [this]
      refine wp_mono (wp_state (R := fun e => shown { s1 with eng := e } =
          { shown s with peerEnc := true, closeRecv := c }) |>.mpr he') ?_ ?_
      · intro _ e h
        rw [wp_pure]
        exact ⟨hst1, .inr ⟨rfl, c, fun g => hc (by rw [← hc1] at g; exact g), h⟩⟩
      · intro _ e h
        exact ⟨hst1, .inr ⟨c, fun g => hc (by rw [← hc1] at g; exact g), h⟩⟩
    · rw [wp_pure]
      exact ⟨hst1, .inl ⟨rfl, hs1⟩⟩
  · rintro _ s1 ⟨hs1, hst1⟩
    exact ⟨hst1, .inl hs1⟩

/-- Announcing the end of the handshake. -/
theorem announceConnected_seen (a : St) (f g) (s : Ses St) (hs : s.eng.suite ≠ none) :
    wp (announceConnected env a f g) s
      (fun new s' => new = a ∧ s'.st = s.st ∧ ∃ l, Event.connected ∉ l ∧
        shown s' = { shown s with release := true, events := s.events ++ .connected :: l })
      (fun _ _ => False) := by
  obtain ⟨cs, hcs⟩ := Option.ne_none_iff_exists'.mp hs
  unfold announceConnected
  simp only [bind_eq, pure_eq, wp_bind, wp_onEng', wp_modify, wp_get]
  have base : ∀ l, Event.connected ∉ l →
      ∃ l', Event.connected ∉ l' ∧
        shown { s with events := s.events ++ [Event.connected] ++ l, eng := releaseAppData (flightStop s.eng) } =
          { shown s with release := true, events := s.events ++ .connected :: l' } := by
    intro l hl
    refine ⟨l, hl, ?_⟩
    simp [shown, releaseAppData, flightStop]
  have base0 := base [] (by simp)
  rw [List.append_nil] at base0
  split
  · simp only [wp_bind, wp_onEng', wp_pure]
    exact ⟨by trivial, by trivial, base0⟩
  · rw [wp_bind, wp_orPanic]
    split
    · split
      · split
        · simp only [wp_bind, wp_modify, wp_onEng', wp_pure]
          exact ⟨by trivial, by trivial, base _ (by simp)⟩
        · simp only [wp_bind, wp_onEng', wp_pure]
          exact ⟨by trivial, by trivial, base0⟩
      · simp only [wp_bind, wp_onEng', wp_pure]
        exact ⟨by trivial, by trivial, base0⟩
    · rename_i h
      have h' : s.eng.suite = none := h
      rw [hcs] at h'
      cases h'

/-- Combine the transition graph with a function that shows nothing new. -/
theorem Keeps.move {app closed : St} {post : St → Bool} {m : P St St} {s : Ses St}
    (hk : Keeps seen m) {S : St → Prop} (hr : Rets S m)
    (hS : ∀ new, S new → (new = app → s.st = app) ∧ (post new = true → post s.st = true) ∧
      (s.st = app → new = app ∨ new = closed) ∧ (s.st = closed → new = closed)) :
    wp m s (fun new s' => Move app closed post s.st new (shown s) (shown s'))
      (fun _ s' => s'.st = s.st ∧ Move app closed post s.st s.st (shown s) (shown s')) := by
  have h := hk s
  apply wp_of
  · intro new s' he
    rw [he] at h
    have hs : shown s' = shown s := congrArg Prod.fst h
    obtain ⟨h1, h2, h3, h4⟩ := hS new (hr _ _ _ he)
    rw [hs]
    exact .same h1 h2 h3 h4
  · intro f s' he
    rw [he] at h
    have hs : shown s' = shown s := congrArg Prod.fst h
    have ht : s'.st = s.st := congrArg Prod.snd h
    rw [hs]
    exact ⟨ht, .same id id .inl id⟩

end

/-- Prove where a state function can lead. -/
macro "goes" : tactic => `(tactic|
  repeat' first
    | with_reducible exact Rets.fail _
    | with_reducible exact Rets.fatal _
    | with_reducible exact Rets.transient
    | with_reducible exact Rets.panic
    | (with_reducible refine Rets.pure ?_) <;> first | (simp; done) | (split <;> simp; done) | (repeat' split <;> simp; done)
    | with_reducible refine Rets.bind (fun _ => ?_)
    | assumption
    | split)

namespace C12
variable {env : PEnv}

/-- Where each state can lead. -/
def next : CSt → List CSt
  | .sendClientHello => [.awaitHelloVerifyRequest, .awaitServerHello]
  | .awaitHelloVerifyRequest => [.awaitHelloVerifyRequest, .awaitServerHello, .sendClientHello]
  | .awaitServerHello => [.awaitServerHello, .awaitServerKeyExchange, .awaitCertificate]
  | .awaitCertificate => [.awaitCertificate, .awaitServerKeyExchange]
  | .awaitServerKeyExchange =>
    [.awaitServerKeyExchange, .awaitCertificateRequest, .awaitServerHelloDone]
  | .awaitCertificateRequest => [.awaitCertificateRequest, .awaitServerHelloDone]
  | .awaitServerHelloDone => [.awaitServerHelloDone, .sendClientKeyExchange, .sendCertificate]
  | .sendCertificate => [.sendClientKeyExchange]
  | .sendClientKeyExchange => [.sendCertificateVerify, .sendChangeCipherSpec]
  | .sendCertificateVerify => [.sendChangeCipherSpec]
  | .sendChangeCipherSpec => [.sendFinished]
  | .sendFinished => [.awaitChangeCipherSpec]
  | .awaitChangeCipherSpec => [.awaitChangeCipherSpec, .awaitNewSessionTicket]
  | .awaitNewSessionTicket => [.awaitNewSessionTicket, .awaitFinished]
  | .awaitFinished => [.awaitFinished, .awaitApplicationData]
  | .awaitApplicationData => [.awaitApplicationData, .closed]
  | .closed => [.closed]

theorem step_next (st : CSt) : Rets (· ∈ next st) (step env st) := by
  cases st <;> unfold step next
  · unfold sendClientHello; simp only [bind_eq, pure_eq]; goes
  · unfold awaitHelloVerifyRequest; simp only [bind_eq, pure_eq]; goes
  · unfold awaitServerHello; simp only [bind_eq, pure_eq]; goes
  · unfold awaitCertificate; simp only [bind_eq, pure_eq]; goes
  · unfold awaitServerKeyExchange awaitServerKeyExchangePsk awaitServerKeyExchangeEcdhe
    simp only [bind_eq, pure_eq]; goes
  · unfold awaitCertificateRequest; simp only [bind_eq, pure_eq]; goes
  · unfold awaitServerHelloDone; simp only [bind_eq, pure_eq]; goes
  · unfold sendCertificate; simp only [bind_eq, pure_eq]; goes
  · unfold sendClientKeyExchange; simp only [bind_eq, pure_eq]; goes
  · unfold sendCertificateVerify; simp only [bind_eq, pure_eq]; goes
  · unfold sendChangeCipherSpec; simp only [bind_eq, pure_eq]; goes
  · unfold sendFinished; simp only [bind_eq, pure_eq]; goes
  · exact awaitChangeCipherSpec_rets (by simp) (by simp)
  · unfold awaitNewSessionTicket; simp only [bind_eq, pure_eq]; goes
  · unfold awaitFinished; simp only [bind_eq, pure_eq]; goes
    exact announceConnected_rets (by simp) _ _
  · exact awaitApplicationData_rets (by simp) (by simp)
  · exact .pure (by simp)

/-- States after the server's change_cipher_spec. -/
def post : CSt → Bool
  | .awaitNewSessionTicket | .awaitFinished | .awaitApplicationData => true
  | _ => false

theorem awaitServerHelloDone_seen (s : Ses CSt) :
    wp (awaitServerHelloDone env) s
      (fun _ s' => s'.st = s.st ∧
        (shown s' = shown s ∨ shown s' = { shown s with events := s.events ++ [.peerCert] }))
      (fun _ s' => s'.st = s.st ∧ shown s' = shown s) := by
  have hp := shown_proj (St := CSt)
  unfold awaitServerHelloDone
  simp only [bind_eq, pure_eq, wp_bind]
  have h1 := Keeps.nextHandshake hp env.toEnv mtServerHelloDone s
  refine wp_mono (wp_state (R := fun s' => shown s' = shown s ∧ s'.st = s.st) |>.mpr ⟨h1, rfl⟩) ?_ ?_
  · rintro m s1 ⟨hs1, hst1⟩
    split
    · exact ⟨hst1, .inl hs1⟩
    · simp only [wp_bind, wp_get]
      refine wp_orFatal_of (fun suite _ => ?_) ⟨hst1, hs1⟩
      split
      · exact ⟨hst1, .inl hs1⟩
      · rw [wp_bind]
        refine wp_check_of (fun _ => ?_) ⟨hst1, hs1⟩
        simp only [wp_bind, wp_modify, wp_pure]
        refine ⟨hst1, .inr ?_⟩
        rw [← hs1]
        have : s1.events = s.events := congrArg Shown.events hs1
        simp [shown, this]
    · exact ⟨hst1, hs1⟩
  · rintro _ s1 ⟨hs1, hst1⟩
    exact ⟨hst1, hs1⟩

theorem awaitFinished_seen (s : Ses CSt) :
    wp (awaitFinished env) s
      (fun new s' => s'.st = s.st ∧ ((new = .awaitFinished ∧ shown s' = shown s) ∨
        (new = .awaitApplicationData ∧ ∃ l, Event.connected ∉ l ∧
          shown s' = { shown s with release := true, events := s.events ++ .connected :: l })))
      (fun _ s' => s'.st = s.st ∧ shown s' = shown s) := by
  have hp := shown_proj (St := CSt)
  unfold awaitFinished
  simp only [bind_eq, pure_eq, wp_bind, wp_onEng]
  apply wp_of
  · intro v e he
    have hsu : s.eng.suite ≠ none ∧ e = s.eng := by
      unfold generateVerifyData at he
      split at he
      · cases he
      · rename_i cs hcs
        refine ⟨by rw [hcs]; nofun, ?_⟩
        repeat' split at he
        all_goals cases he
        rfl
    obtain ⟨hsu, rfl⟩ := hsu
    have h1 := nextHandshake_quiet env.toEnv mtFinished s.eng
    refine wp_mono (wp_state (R := Quiet s.eng) |>.mpr h1) ?_ ?_
    · intro m e hq
      have hs1 : shown { s with eng := e } = shown s := shown_proj s e hq
      have hsu' : e.suite ≠ none := by
        obtain ⟨_, _, _, _, _, _, _, _, _, _, _, _, _, rfl⟩ := hq
        exact hsu
      split
      · exact ⟨by trivial, .inl ⟨by trivial, hs1⟩⟩
      · rw [wp_bind]
        refine wp_check_of (fun _ => ?_) ⟨rfl, hs1⟩
        refine wp_mono (announceConnected_seen _ _ _ _ hsu') ?_ (fun _ _ h => h.elim)
        rintro new s' ⟨rfl, hst, l, hl, he⟩
        refine ⟨hst, .inr ⟨rfl, l, hl, ?_⟩⟩
        rw [he, hs1]
      · exact ⟨by trivial, hs1⟩
    · intro _ e hq
      exact ⟨by trivial, shown_proj s e hq⟩
  · intro f e he
    have : e = s.eng := by
      have := generateVerifyData_snd env.toEnv false s.eng
      rw [he] at this
      exact this
    subst this
    exact ⟨by trivial, rfl⟩

theorem next_same (x new : CSt) (hn : new ∈ next x) (h1 : x ≠ .awaitChangeCipherSpec)
    (h2 : x ≠ .awaitFinished) :
    (new = CSt.awaitApplicationData → x = CSt.awaitApplicationData) ∧ (post new = true → post x = true) ∧
      (x = CSt.awaitApplicationData → new = CSt.awaitApplicationData ∨ new = CSt.closed) ∧
      (x = CSt.closed → new = CSt.closed) := by
  revert hn h1 h2
  cases x <;> cases new <;> decide

theorem step_move (s : Ses CSt) : wp (step env s.st) s
    (fun new s' => Move .awaitApplicationData .closed post s.st new (shown s) (shown s'))
    (fun _ s' => s'.st = s.st ∧
      Move .awaitApplicationData .closed post s.st s.st (shown s) (shown s')) := by
    suffices H : ∀ x, s.st = x → wp (step env x) s
        (fun new s' => Move .awaitApplicationData .closed post s.st new (shown s) (shown s'))
        (fun _ s' => s'.st = s.st ∧ Move .awaitApplicationData .closed post s.st s.st (shown s) (shown s')) from H _ rfl
    intro x hst
    have quick : ∀ {m : P CSt CSt}, Keeps seen m → Rets (· ∈ next x) m →
        x ≠ .awaitChangeCipherSpec → x ≠ .awaitFinished →
        wp m s (fun new s' => Move .awaitApplicationData .closed post s.st new (shown s) (shown s'))
        (fun _ s' => s'.st = s.st ∧ Move .awaitApplicationData .closed post s.st s.st (shown s) (shown s')) := by
      intro m hk hr hx1 hx2
      refine Keeps.move hk hr ?_
      rw [hst]
      intro new hn
      exact next_same x new hn hx1 hx2
    have hn := step_next (env := env) x
    cases x
    · exact quick sendClientHello_shown hn nofun nofun
    · exact quick awaitHelloVerifyRequest_shown hn nofun nofun
    · exact quick awaitServerHello_shown hn nofun nofun
    · exact quick awaitCertificate_shown hn nofun nofun
    · exact quick awaitServerKeyExchange_shown hn nofun nofun
    · exact quick awaitCertificateRequest_shown hn nofun nofun
    · apply wp_of
      · intro new s' he
        have hn' := hn _ _ _ he
        obtain ⟨_, h | h⟩ := wp_ok (awaitServerHelloDone_seen s) he <;> rw [hst, h]
        · obtain ⟨h1, h2, h3, h4⟩ := next_same _ _ hn' nofun nofun
          exact .same h1 h2 h3 h4
        · obtain ⟨h1, h2, h3, h4⟩ := next_same _ _ hn' nofun nofun
          exact .cert (fun h => nomatch h1 h) h2 nofun nofun
      · intro f s' he
        obtain ⟨h1, h⟩ := wp_fail (awaitServerHelloDone_seen s) he
        rw [h]
        exact ⟨h1, .same id id .inl id⟩
    · exact quick sendCertificate_shown hn nofun nofun
    · exact quick sendClientKeyExchange_shown hn nofun nofun
    · exact quick sendCertificateVerify_shown hn nofun nofun
    · exact quick sendChangeCipherSpec_shown hn nofun nofun
    · exact quick sendFinished_shown hn nofun nofun
    · refine wp_mono (awaitChangeCipherSpec_seen _ _ s) ?_ ?_
      · rintro new s' ⟨_, ⟨rfl, h⟩ | ⟨rfl, c, hc, h⟩⟩ <;> rw [hst, h]
        · exact .same id id .inl id
        · exact .ccs (by nofun) (by nofun) (by nofun) c (by exact hc)
      · rintro _ s' ⟨h1, h | ⟨c, hc, h⟩⟩
        · rw [h]
          exact ⟨h1, .same id id .inl id⟩
        · rw [h]
          exact ⟨h1, by rw [hst]; exact .ccs (by nofun) (by nofun) (by nofun) c (by exact hc)⟩
    · exact quick awaitNewSessionTicket_shown hn nofun nofun
    · refine wp_mono (awaitFinished_seen s) ?_ ?_
      · rintro new s' ⟨_, ⟨rfl, h⟩ | ⟨rfl, l, hl, h⟩⟩ <;> rw [hst, h]
        · exact .same id id .inl id
        · exact .connect rfl rfl (by nofun) (by nofun) l hl
      · rintro _ s' ⟨h1, h⟩
        rw [h]
        exact ⟨h1, .same id id .inl id⟩
    · exact quick (awaitApplicationData_shown _ _) hn nofun nofun
    · exact quick (.pure _) hn nofun nofun

theorem showRule : ShowRule role env post where
  app := rfl
  closed := rfl
  ne := nofun
  step := step_move

end C12

namespace S12
variable {env : PEnv}

/-- Where each state can lead. -/
def next : SSt → List SSt
  | .awaitClientHello => [.awaitClientHello, .sendServerHello]
  | .sendServerHello => [.sendServerKeyExchange, .sendCertificate]
  | .sendCertificate => [.sendServerKeyExchange]
  | .sendServerKeyExchange => [.sendCertificateRequest, .sendServerHelloDone]
  | .sendCertificateRequest => [.sendServerHelloDone]
  | .sendServerHelloDone => [.awaitClientKeyExchange, .awaitCertificate]
  | .awaitCertificate => [.awaitCertificate, .awaitClientKeyExchange]
  | .awaitClientKeyExchange =>
    [.awaitClientKeyExchange, .awaitChangeCipherSpec, .awaitCertificateVerify]
  | .awaitCertificateVerify => [.awaitCertificateVerify, .awaitChangeCipherSpec]
  | .awaitChangeCipherSpec => [.awaitChangeCipherSpec, .awaitFinished]
  | .awaitFinished => [.awaitFinished, .sendChangeCipherSpec]
  | .sendChangeCipherSpec => [.sendFinished]
  | .sendFinished => [.awaitApplicationData]
  | .awaitApplicationData => [.awaitApplicationData, .closed]
  | .closed => [.closed]

theorem step_next (st : SSt) : Rets (· ∈ next st) (step env st) := by
  cases st <;> unfold step next
  · unfold awaitClientHello acceptClientHello sendHelloVerify; simp only [bind_eq, pure_eq]; goes
  · unfold sendServerHello; simp only [bind_eq, pure_eq]; goes
  · unfold sendCertificate; simp only [bind_eq, pure_eq]; goes
  · unfold sendServerKeyExchange sendServerKeyExchangePsk sendServerKeyExchangeEcdhe
    simp only [bind_eq, pure_eq]; goes
  · unfold sendCertificateRequest; simp only [bind_eq, pure_eq]; goes
  · unfold sendServerHelloDone; simp only [bind_eq, pure_eq]; goes
  · unfold awaitCertificate; simp only [bind_eq, pure_eq]; goes
  · unfold awaitClientKeyExchange finishClientKx; simp only [bind_eq, pure_eq]; goes
  · unfold awaitCertificateVerify; simp only [bind_eq, pure_eq]; goes
  · exact awaitChangeCipherSpec_rets (by simp) (by simp)
  · unfold awaitFinished; simp only [bind_eq, pure_eq]; goes
  · unfold sendChangeCipherSpec; simp only [bind_eq, pure_eq]; goes
  · unfold sendFinished; simp only [bind_eq]; goes
    exact announceConnected_rets (by simp) _ _
  · exact awaitApplicationData_rets (by simp) (by simp)
  · exact .pure (by simp)

/-- States after the client's change_cipher_spec. -/
def post : SSt → Bool
  | .awaitFinished | .sendChangeCipherSpec | .sendFinished | .awaitApplicationData => true
  | _ => false

theorem next_same (x new : SSt) (hn : new ∈ next x) (h1 : x ≠ .awaitChangeCipherSpec)
    (h2 : x ≠ .sendFinished) :
    (new = SSt.awaitApplicationData → x = SSt.awaitApplicationData) ∧ (post new = true → post x = true) ∧
      (x = SSt.awaitApplicationData → new = SSt.awaitApplicationData ∨ new = SSt.closed) ∧
      (x = SSt.closed → new = SSt.closed) := by
  revert hn h1 h2
  cases x <;> cases new <;> decide

theorem awaitCertificate_seen (s : Ses SSt) :
    wp (awaitCertificate env) s
      (fun _ s' => s'.st = s.st ∧
        (shown s' = shown s ∨ shown s' = { shown s with events := s.events ++ [.peerCert] }))
      (fun _ s' => s'.st = s.st ∧ shown s' = shown s) := by
  have hp := shown_proj (St := SSt)
  unfold awaitCertificate
  simp only [bind_eq, pure_eq, wp_bind]
  have h1 := Keeps.nextHandshake hp env.toEnv mtCertificate s
  refine wp_mono (wp_state (R := fun s' => shown s' = shown s ∧ s'.st = s.st) |>.mpr ⟨h1, rfl⟩) ?_ ?_
  · rintro m s1 ⟨hs1, hst1⟩
    split
    · exact ⟨hst1, .inl hs1⟩
    · split
      · simp only [wp_pure]
        exact ⟨hst1, .inl hs1⟩
      · simp only [wp_bind, wp_modify, wp_pure]
        refine ⟨hst1, .inr ?_⟩
        rw [← hs1]
        have : s1.events = s.events := congrArg Shown.events hs1
        simp [shown, this]
    · exact ⟨hst1, hs1⟩
  · rintro _ s1 ⟨hs1, hst1⟩
    exact ⟨hst1, hs1⟩

theorem sendFinished_seen (s : Ses SSt) :
    wp (sendFinished env) s
      (fun new s' => s'.st = s.st ∧ new = .awaitApplicationData ∧ ∃ l, Event.connected ∉ l ∧
          shown s' = { shown s with release := true, events := s.events ++ .connected :: l })
      (fun _ s' => s'.st = s.st ∧ shown s' = shown s) := by
  have hp := shown_proj (St := SSt)
  unfold sendFinished
  simp only [bind_eq, wp_bind, wp_onEng]
  apply wp_of
  · intro v e he
    have hsu : s.eng.suite ≠ none ∧ e = s.eng := by
      unfold generateVerifyData at he
      split at he
      · cases he
      · rename_i cs hcs
        refine ⟨by rw [hcs]; nofun, ?_⟩
        repeat' split at he
        all_goals cases he
        rfl
    obtain ⟨hsu, rfl⟩ := hsu
    have h1 := createHandshake_quiet env.toEnv mtFinished v s.eng
    refine wp_mono (wp_state (R := Quiet s.eng) |>.mpr h1) ?_ ?_
    · intro m e hq
      have hs1 : shown { s with eng := e } = shown s := shown_proj s e hq
      have hsu' : e.suite ≠ none := by
        obtain ⟨_, _, _, _, _, _, _, _, _, _, _, _, _, rfl⟩ := hq
        exact hsu
      refine wp_mono (announceConnected_seen _ _ _ _ hsu') ?_ (fun _ _ h => h.elim)
      rintro new s' ⟨rfl, hst, l, hl, he⟩
      refine ⟨hst, rfl, l, hl, ?_⟩
      rw [he, hs1]
    · intro _ e hq
      exact ⟨by trivial, shown_proj s e hq⟩
  · intro f e he
    have : e = s.eng := by
      have := generateVerifyData_snd env.toEnv false s.eng
      rw [he] at this
      exact this
    subst this
    exact ⟨by trivial, rfl⟩

theorem step_move (s : Ses SSt) : wp (step env s.st) s
    (fun new s' => Move .awaitApplicationData .closed post s.st new (shown s) (shown s'))
    (fun _ s' => s'.st = s.st ∧
      Move .awaitApplicationData .closed post s.st s.st (shown s) (shown s')) := by
    suffices H : ∀ x, s.st = x → wp (step env x) s
        (fun new s' => Move .awaitApplicationData .closed post s.st new (shown s) (shown s'))
        (fun _ s' => s'.st = s.st ∧ Move .awaitApplicationData .closed post s.st s.st (shown s) (shown s')) from H _ rfl
    intro x hst
    have quick : ∀ {m : P SSt SSt}, Keeps seen m → Rets (· ∈ next x) m →
        x ≠ .awaitChangeCipherSpec → x ≠ .sendFinished →
        wp m s (fun new s' => Move .awaitApplicationData .closed post s.st new (shown s) (shown s'))
        (fun _ s' => s'.st = s.st ∧ Move .awaitApplicationData .closed post s.st s.st (shown s) (shown s')) := by
      intro m hk hr hx1 hx2
      refine Keeps.move hk hr ?_
      rw [hst]
      intro new hn
      exact next_same x new hn hx1 hx2
    have hn := step_next (env := env) x
    cases x
    · exact quick awaitClientHello_shown hn nofun nofun
    · exact quick sendServerHello_shown hn nofun nofun
    · exact quick sendCertificate_shown hn nofun nofun
    · exact quick sendServerKeyExchange_shown hn nofun nofun
    · exact quick sendCertificateRequest_shown hn nofun nofun
    · exact quick sendServerHelloDone_shown hn nofun nofun
    · apply wp_of
      · intro new s' he
        have hn' := hn _ _ _ he
        obtain ⟨_, h | h⟩ := wp_ok (awaitCertificate_seen s) he <;> rw [hst, h]
        · obtain ⟨h1, h2, h3, h4⟩ := next_same _ _ hn' nofun nofun
          exact .same h1 h2 h3 h4
        · obtain ⟨h1, h2, h3, h4⟩ := next_same _ _ hn' nofun nofun
          exact .cert (fun h => nomatch h1 h) h2 nofun nofun
      · intro f s' he
        obtain ⟨h1, h⟩ := wp_fail (awaitCertificate_seen s) he
        rw [h]
        exact ⟨h1, .same id id .inl id⟩
    · exact quick awaitClientKeyExchange_shown hn nofun nofun
    · exact quick awaitCertificateVerify_shown hn nofun nofun
    · refine wp_mono (awaitChangeCipherSpec_seen _ _ s) ?_ ?_
      · rintro new s' ⟨_, ⟨rfl, h⟩ | ⟨rfl, c, hc, h⟩⟩ <;> rw [hst, h]
        · exact .same id id .inl id
        · exact .ccs (by nofun) (by nofun) (by nofun) c (by exact hc)
      · rintro _ s' ⟨h1, h | ⟨c, hc, h⟩⟩
        · rw [h]
          exact ⟨h1, .same id id .inl id⟩
        · rw [h]
          exact ⟨h1, by rw [hst]; exact .ccs (by nofun) (by nofun) (by nofun) c (by exact hc)⟩
    · exact quick awaitFinished_shown hn nofun nofun
    · exact quick sendChangeCipherSpec_shown hn nofun nofun
    · refine wp_mono (sendFinished_seen s) ?_ ?_
      · rintro new s' ⟨_, rfl, l, hl, h⟩
        rw [hst, h]
        exact .connect rfl rfl (by nofun) (by nofun) l hl
      · rintro _ s' ⟨h1, h⟩
        rw [h]
        exact ⟨h1, .same id id .inl id⟩
    · exact quick (awaitApplicationData_shown _ _) hn nofun nofun
    · exact quick (.pure _) hn nofun nofun

theorem showRule : ShowRule role env post where
  app := rfl
  closed := rfl
  ne := nofun
  step := step_move

end S12
end Verif.E12

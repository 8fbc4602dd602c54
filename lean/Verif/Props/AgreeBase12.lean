import Verif.Lemmas.Adds12
import Verif.Props.ShakeServer12
/-!
# A DTLS 1.2 client and server with the same Finished agree (C60)

`Params` say what the messages in a transcript have to do with the parameters a session uses. `Said` and
`Took` are about the Finished sent and accepted.
-/
namespace Verif.Props.Agree12
open Verif Wire Window Timer Aead M E12

/-! ## Statement -/

/-- Whoever parses the body as a ClientHello finds this random. -/
def Names (env : PEnv) (r body : Bytes) : Prop :=
  ∀ rest h, env.parseClientHello body = some (rest, h) → h.random = r

/-- The body of a ServerHello with a use_srtp extension that begins with this profile. -/
def SaysSrtp (env : PEnv) (body : Bytes) (p : Nat) : Prop :=
  ∃ h xs d ps, env.parseServerHello body = some ([], h) ∧ h.exts = some xs ∧ (14, d) ∈ xs ∧
    env.parseUseSrtp d = some (p :: ps)

/-- What a ClientHello written by this code says. -/
def ClientWrites (env : PEnv) : Prop := ∀ r cookie sid, r.length = 32 → Names env r (env.clientHelloBody r cookie sid)

/-- What a ServerHello written by this code says: random, suite and SRTP profile are those it was written
with. -/
def ServerWrites (env : PEnv) : Prop :=
  ∀ r cs p h xs, r.length = 32 → cs ∈ env.allowed → (∀ q, p = some q → q ∈ [8, 7, 1]) →
    env.parseServerHello (env.serverHelloBody r [] cs p) = some ([], h) → h.exts = some xs →
    h.random = r ∧ h.suite = cs ∧ (∀ d, (14, d) ∈ xs → ∃ q, p = some q ∧ env.parseUseSrtp d = some [q]) ∧
    (∀ q, p = some q → ∃ d, (14, d) ∈ xs)

/-- Parameters of a client and the messages they are from. -/
structure Client.Params (env : PEnv) (s : Ses CSt) (ms : List TMsg) : Prop where
  named : ∀ m ∈ ms, m.t = 1 → ∃ r, s.random = some r ∧ (r.length = 32 → Names env r m.body)
  offered : ∀ p, s.srtp = some p → ∃ m ∈ ms, m.t = 2 ∧ SaysSrtp env m.body p
  hello : ∃ body h xs, lastOf 2 ms = some body ∧ env.parseServerHello body = some ([], h) ∧
    s.eng.suite = some h.suite ∧ s.peerRandom = some h.random ∧ h.exts = some xs ∧
    (s.srtp = none → ∀ d, (14, d) ∈ xs → env.parseUseSrtp d = some [])

/-- Parameters of a server and the messages they are from. -/
structure Server.Params (env : PEnv) (s : Ses SSt) (ms : List TMsg) : Prop where
  heard : ∃ body h, lastOf 1 ms = some body ∧ env.parseClientHello body = some ([], h) ∧
    s.peerRandom = some h.random
  wrote : ∀ m ∈ ms, m.t = 2 → ∃ r cs, s.random = some r ∧ s.eng.suite = some cs ∧ cs ∈ env.allowed ∧
    m.body = env.serverHelloBody r [] cs s.srtp
  srtp : ∀ p, s.srtp = some p → p ∈ [8, 7, 1]

/-- The session sent a Finished with verify_data `v`, computed under its master secret over messages its
parameters are from. -/
def Said {St : Type} (Params : Ses St → List TMsg → Prop) (env : PEnv) (isClient : Bool) (s : Ses St) (v : Bytes) :
    Prop :=
  ∃ ms m seq, Params s ms ∧ s.eng.master = some m ∧ env.verifyData m isClient (flat ms) = some v ∧
    flat (ms ++ [⟨20, seq, v⟩]) <+: s.eng.transcript

/-- The session accepted a Finished with verify_data `v`. -/
def Took {St : Type} (Params : Ses St → List TMsg → Prop) (env : PEnv) (isClient : Bool) (s : Ses St) (v : Bytes) :
    Prop :=
  ∃ ms m cs seq body, Params s ms ∧ s.eng.master = some m ∧ s.eng.suite = some cs ∧
    .consumed seq 20 body ∈ s.eng.log ∧ env.parseFinished cs body = some ([], v) ∧
    env.verifyData m isClient (flat ms) = some v ∧ flat (ms ++ [⟨20, seq, body⟩]) <+: s.eng.transcript

/-! ## Keeping what there is -/

/-- What the conditions are about. -/
structure Kept {St : Type} (s s' : Ses St) : Prop where
  random : ∀ r, s.random = some r → s'.random = some r
  peerRandom : s'.peerRandom = s.peerRandom
  srtp : s'.srtp = s.srtp
  suite : s'.eng.suite = s.eng.suite
  sessionId : s'.sessionId = s.sessionId

theorem _root_.Verif.E12.Still.kept {St : Type} {s s' : Ses St} (h : Still s s') : Kept s s' :=
  ⟨h.random, h.peerRandom, h.srtp, h.suite, h.sessionId⟩

theorem Client.Params.kept {env : PEnv} {s s' : Ses CSt} {ms : List TMsg} (h : Client.Params env s ms)
    (hk : Kept s s') : Client.Params env s' ms := by
  obtain ⟨body, x, xs, h1, h2, h3, h4, h5, h6⟩ := h.hello
  refine ⟨fun m hm ht => ?_, fun p hp => h.offered p (hk.srtp.symm.trans hp),
    body, x, xs, h1, h2, hk.suite.trans h3, hk.peerRandom.trans h4, h5, fun g => h6 (hk.srtp.symm.trans g)⟩
  obtain ⟨r, h1, h2⟩ := h.named m hm ht
  exact ⟨r, hk.random r h1, h2⟩

theorem Server.Params.kept {env : PEnv} {s s' : Ses SSt} {ms : List TMsg} (h : Server.Params env s ms)
    (hk : Kept s s') : Server.Params env s' ms := by
  obtain ⟨body, x, h1, h2, h3⟩ := h.heard
  refine ⟨⟨body, x, h1, h2, hk.peerRandom.trans h3⟩, fun m hm ht => ?_, fun p hp => h.srtp p (hk.srtp.symm.trans hp)⟩
  obtain ⟨r, cs, h1, h2, h3, h4⟩ := h.wrote m hm ht
  exact ⟨r, cs, hk.random r h1, hk.suite.trans h2, h3, by rw [hk.srtp]; exact h4⟩

section
variable {St : Type} {P : Ses St → List TMsg → Prop} {env : PEnv} {b : Bool} {s s' : Ses St} {v : Bytes}

theorem Said.kept (hP : ∀ s s' ms, P s ms → Kept s s' → P s' ms) (h : Said P env b s v) (hk : Kept s s')
    (hm : s'.eng.master = s.eng.master) (ht : s.eng.transcript <+: s'.eng.transcript) : Said P env b s' v := by
  obtain ⟨ms, m, seq, h1, h2, h3, h4⟩ := h
  exact ⟨ms, m, seq, hP _ _ _ h1 hk, hm.trans h2, h3, h4.trans ht⟩

theorem Took.kept (hP : ∀ s s' ms, P s ms → Kept s s' → P s' ms) (h : Took P env b s v) (hk : Kept s s')
    (hm : s'.eng.master = s.eng.master) (ht : s.eng.transcript <+: s'.eng.transcript)
    (hl : ∃ es, s'.eng.log = es ++ s.eng.log) : Took P env b s' v := by
  obtain ⟨ms, m, cs, seq, body, h1, h2, h3, h4, h5⟩ := h
  obtain ⟨es, hl⟩ := hl
  exact ⟨ms, m, cs, seq, body, hP _ _ _ h1 hk, hm.trans h2, hk.suite.trans h3,
    (by rw [hl]; exact List.mem_append_right _ h4), h5.1, h5.2.1, h5.2.2.trans ht⟩

theorem Said.still (hP : ∀ s s' ms, P s ms → Kept s s' → P s' ms) (h : Said P env b s v) (hk : Still s s') :
    Said P env b s' v := h.kept hP hk.kept hk.master (by rw [hk.same]; exact List.prefix_refl _)

theorem Took.still (hP : ∀ s s' ms, P s ms → Kept s s' → P s' ms) (h : Took P env b s v) (hk : Still s s') :
    Took P env b s' v := h.kept hP hk.kept hk.master (by rw [hk.same]; exact List.prefix_refl _) hk.log

end

/-- What is looked at of a session. -/
def look {St : Type} (s : Ses St) : (Option Bytes × Option Bytes × Option Nat) × (Option Nat × Option Bytes × St) :=
  ((s.random, s.peerRandom, s.srtp), (s.eng.suite, s.sessionId, s.st))

theorem look_proj {St : Type} : Proj (look (St := St)) := by
  rintro s e ⟨_, _, _, _, _, _, _, _, _, _, _, es, he, rfl⟩
  rfl

theorem kept_of_look {St : Type} {s s' : Ses St} (h : look s' = look s) :
    Kept s s' ∧ s'.st = s.st ∧ s'.random = s.random := by
  have h1 := congrArg (fun x => x.1.1) h
  have h2 := congrArg (fun x => x.1.2.1) h
  have h3 := congrArg (fun x => x.1.2.2) h
  have h4 := congrArg (fun x => x.2.1) h
  have h5 := congrArg (fun x => x.2.2.1) h
  have h6 := congrArg (fun x => x.2.2.2) h
  exact ⟨⟨fun _ g => (show s'.random = s.random from h1).trans g, h2, h3, h4, h5⟩, h6, h1⟩

theorem ccs_look {St : Type} {env : PEnv} (a b : St) : Keeps look (awaitChangeCipherSpec env a b) := by
  intro s
  have hl := (ccs_later (env := env) a b s).1
  have h : ∃ e, (awaitChangeCipherSpec env a b s).2 = { s with eng := e } := by
    apply of_wp (m := awaitChangeCipherSpec env a b) (R := fun s' : Ses St => ∃ e, s' = { s with eng := e })
    unfold awaitChangeCipherSpec
    simp only [bind_eq, pure_eq, wp_bind, wp_onEng]
    refine wp_mono (to_wp (R := fun _ => True) trivial) ?_ (fun _ e _ => ⟨e, rfl⟩)
    intro got e _
    split
    · simp only [wp_bind, wp_onEng', wp_onEng]
      exact wp_mono (to_wp (R := fun _ => True) trivial) (fun _ e _ => ⟨e, rfl⟩) (fun _ e _ => ⟨e, rfl⟩)
    · exact ⟨e, rfl⟩
  obtain ⟨e, h⟩ := h
  have hs := hl.suite
  rw [h] at hs ⊢
  unfold look
  dsimp only at hs ⊢
  rw [hs]

theorem app_look {St : Type} {env : PEnv} (a c : St) (s : Ses St) :
    Kept s (awaitApplicationData env a c s).2 ∧ (awaitApplicationData env a c s).2.st = s.st ∧
      (awaitApplicationData env a c s).2.random = s.random := by
  refine ⟨(app_still a c s).1.kept, (app_still a c s).2, ?_⟩
  have hp : Proj (fun s : Ses St => s.random) := fun _ _ _ => rfl
  have hl : ∀ l, Keeps (fun s : Ses St => s.random) (drainLoop env l) := by
    intro l
    induction l with
    | nil => exact .pure _
    | cons d l ih => exact .bind (.record hp _ _ _ _ _ _) fun _ => ih
  have hd : Keeps (fun s : Ses St => s.random) (drainQueued env) := fun s => hl s.queued { s with queued := [] }
  have h : Keeps (fun s : Ses St => s.random) (awaitApplicationData env a c) := by
    unfold awaitApplicationData sendCloseNotify
    simp only [bind_eq, pure_eq]
    keeps
  exact h s

theorem client_kept {env : PEnv} (st : CSt) (h1 : st ≠ .awaitServerHello) (s : Ses CSt) :
    Kept s (C12.step env st s).2 ∧ (C12.step env st s).2.st = s.st ∧ (C12.step env st s).2.random = s.random := by
  have hp := look_proj (St := CSt)
  have hr : Keeps look (onEng' releaseAppData : P CSt Unit) := fun _ => rfl
  cases st
  case awaitServerHello => exact absurd rfl h1
  case awaitApplicationData => exact app_look _ _ s
  case awaitChangeCipherSpec => exact kept_of_look (ccs_look _ _ s)
  case closed => exact kept_of_look rfl
  all_goals
    refine kept_of_look ((?_ : Keeps look _) s)
    clear s
    unfold C12.step
    first
      | (unfold C12.sendClientHello; simp only [bind_eq, pure_eq]; keeps; done)
      | (unfold C12.awaitHelloVerifyRequest; simp only [bind_eq, pure_eq]; keeps; done)
      | (unfold C12.awaitCertificate; simp only [bind_eq, pure_eq]; keeps; done)
      | (unfold C12.awaitServerKeyExchange C12.awaitServerKeyExchangePsk C12.awaitServerKeyExchangeEcdhe C12.processEcdh
         simp only [bind_eq, pure_eq]; keeps; done)
      | (unfold C12.awaitCertificateRequest; simp only [bind_eq, pure_eq]; keeps; done)
      | (unfold C12.awaitServerHelloDone; simp only [bind_eq, pure_eq]; keeps; done)
      | (unfold C12.sendCertificate; simp only [bind_eq, pure_eq]; keeps; done)
      | (unfold C12.sendClientKeyExchange C12.clientKeyExchangeBody; simp only [bind_eq, pure_eq]; keeps; done)
      | (unfold C12.sendCertificateVerify C12.certificateVerifyBody; simp only [bind_eq, pure_eq]; keeps; done)
      | (unfold C12.sendChangeCipherSpec C12.deriveKeys deriveMaster; simp only [bind_eq, pure_eq]; keeps; done)
      | (unfold C12.sendFinished; simp only [bind_eq, pure_eq]; keeps; done)
      | (unfold C12.awaitNewSessionTicket; simp only [bind_eq, pure_eq]; keeps; done)
      | (unfold C12.awaitFinished announceConnected; simp only [bind_eq, pure_eq]; keeps; done)

theorem server_kept {env : PEnv} (st : SSt) (h1 : st ≠ .awaitClientHello) (s : Ses SSt) :
    Kept s (S12.step env st s).2 ∧ (S12.step env st s).2.st = s.st ∧ (S12.step env st s).2.random = s.random := by
  have hp := look_proj (St := SSt)
  have hr : Keeps look (onEng' releaseAppData : P SSt Unit) := fun _ => rfl
  cases st
  case awaitClientHello => exact absurd rfl h1
  case awaitApplicationData => exact app_look _ _ s
  case awaitChangeCipherSpec => exact kept_of_look (ccs_look _ _ s)
  case closed => exact kept_of_look rfl
  all_goals
    refine kept_of_look ((?_ : Keeps look _) s)
    clear s
    unfold S12.step
    first
      | (unfold S12.sendServerHello; simp only [bind_eq, pure_eq]; keeps; done)
      | (unfold S12.sendCertificate; simp only [bind_eq, pure_eq]; keeps; done)
      | (unfold S12.sendServerKeyExchange S12.sendServerKeyExchangePsk S12.sendServerKeyExchangeEcdhe
           S12.serverKeyExchangeBody
         simp only [bind_eq, pure_eq]; keeps; done)
      | (unfold S12.sendCertificateRequest; simp only [bind_eq, pure_eq]; keeps; done)
      | (unfold S12.sendServerHelloDone; simp only [bind_eq, pure_eq]; keeps; done)
      | (unfold S12.awaitCertificate; simp only [bind_eq, pure_eq]; keeps; done)
      | (unfold S12.awaitClientKeyExchange S12.clientKxPsk S12.clientKxEcdh S12.finishClientKx deriveMaster
         simp only [bind_eq, pure_eq]; keeps; done)
      | (unfold S12.awaitCertificateVerify; simp only [bind_eq, pure_eq]; keeps; done)
      | (unfold S12.awaitFinished; simp only [bind_eq, pure_eq]; keeps; done)
      | (unfold S12.sendChangeCipherSpec; simp only [bind_eq, pure_eq]; keeps; done)
      | (unfold S12.sendFinished announceConnected; simp only [bind_eq, pure_eq]; keeps; done)

end Verif.Props.Agree12

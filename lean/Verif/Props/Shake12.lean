import Verif.Lemmas.Saga12
import Verif.Props.Demo12
/-!
# What a DTLS 1.2 session checked before it reports Connected (C40, C42, C43, C44)

The conditions are stated over the messages consumed (`Ev.consumed` in the log), the transcript, the
configuration and the cryptographic parameters.
-/
namespace Verif.Props.Shake12
open Verif Wire Window Timer Aead M E12

/-- The session consumed a handshake message of type `t` with this body. -/
def Got {St : Type} (s : Ses St) (t : UInt8) (body : Bytes) : Prop := ∃ seq, .consumed seq t body ∈ s.eng.log

/-- The message stands in the transcript right after `pre`. -/
def After {St : Type} (s : Ses St) (pre : Bytes) (t : UInt8) (seq : Nat) (body : Bytes) : Prop :=
  ∃ post, s.eng.transcript = pre ++ transcriptOf t body.length seq body ++ post

/-- The peer's Finished arrived and its verify_data is the one for the transcript before it. -/
def FinOk {St : Type} (env : PEnv) (peerIsClient : Bool) (s : Ses St) : Prop :=
  ∃ m cs pre seq body v, s.eng.master = some m ∧ s.eng.suite = some cs ∧
    .consumed seq mtFinished body ∈ s.eng.log ∧ After s pre mtFinished seq body ∧
    env.parseFinished cs body = some ([], v) ∧ env.verifyData m peerIsClient pre = some v

/-- The first of the peer's certificates came in a Certificate message. -/
def CertIn {St : Type} (env : PEnv) (s : Ses St) : Prop :=
  ∀ c, s.peerCerts.head? = some c → ∃ body certs, Got s mtCertificate body ∧
    env.parseCertificate body = some ([], certs) ∧ certs.head? = some c

/-! ## Client -/

/-- The suite in use was named in a ServerHello, is one of those configured, and fits the key. The
server's random is from the same message. -/
def ServerHelloOk {St : Type} (env : PEnv) (s : Ses St) : Prop :=
  ∃ body h, Got s mtServerHello body ∧ env.parseServerHello body = some ([], h) ∧ h.version = 0xFEFD ∧
    s.eng.suite = some h.suite ∧ s.peerRandom = some h.random ∧ h.suite ∈ env.allowed ∧
    env.compatible h.suite = true

/-- PSK, or the key exchange is signed under the server's certificate with an accepted scheme. -/
def SkeOk {St : Type} (env : PEnv) (s : Ses St) : Prop :=
  ∃ cs, s.eng.suite = some cs ∧ (Config.isPsk cs = true ∨
    ∃ body curve group pub alg sig cr sr cert, Got s mtServerKeyExchange body ∧
      env.parseServerKx cs body = some ([], .ecdh curve group pub (some (alg, sig))) ∧
      s.random = some cr ∧ s.peerRandom = some sr ∧ s.peerCerts.head? = some cert ∧
      alg ∈ [0x0403, 0x0503, 0x0401, 0x0501] ∧
      env.verifySig cert (cr ++ sr ++ [curve] ++ beBytes 2 group ++ [UInt8.ofNat pub.length] ++ pub) alg sig
        = true)

section mono
variable {St : Type} {env : PEnv} {s s' : Ses St}

theorem Got.near {t : UInt8} {body : Bytes} (h : Got s t body) (hn : Near s s') : Got s' t body := by
  obtain ⟨q, h⟩ := h
  obtain ⟨es, he⟩ := hn.log
  exact ⟨q, by rw [he]; exact List.mem_append_right _ h⟩

theorem After.near {pre : Bytes} {t : UInt8} {q : Nat} {body : Bytes} (h : After s pre t q body) (hn : Near s s') :
    After s' pre t q body := by
  obtain ⟨p, h⟩ := h
  obtain ⟨x, hx⟩ := hn.transcript
  exact ⟨p ++ x, by rw [hx, h, List.append_assoc]⟩

theorem FinOk.later {b : Bool} (h : FinOk env b s) (hn : Later s s') : FinOk env b s' := by
  obtain ⟨m, cs, pre, q, body, v, h1, h2, h3, h4, h5, h6⟩ := h
  obtain ⟨es, he⟩ := hn.log
  exact ⟨m, cs, pre, q, body, v, hn.master.trans h1, hn.suite.trans h2,
    (by rw [he]; exact List.mem_append_right _ h3), h4.near hn.toNear, h5, h6⟩

theorem CertIn.near (h : CertIn env s) (hn : Near s s') : CertIn env s' := by
  intro c hc
  rw [hn.peerCerts] at hc
  obtain ⟨b, cs, h1, h2, h3⟩ := h c hc
  exact ⟨b, cs, h1.near hn, h2, h3⟩

theorem ServerHelloOk.near (h : ServerHelloOk env s) (hn : Near s s') : ServerHelloOk env s' := by
  obtain ⟨b, x, h1, h2, h3, h4, h5, h6⟩ := h
  exact ⟨b, x, h1.near hn, h2, h3, hn.suite.trans h4, hn.peerRandom.trans h5, h6⟩

theorem SkeOk.near (h : SkeOk env s) (hn : Near s s') : SkeOk env s' := by
  obtain ⟨cs, h1, h2⟩ := h
  refine ⟨cs, hn.suite.trans h1, h2.imp_right ?_⟩
  rintro ⟨body, curve, group, pub, alg, sig, cr, sr, cert, g1, g2, g3, g4, g5, g6⟩
  exact ⟨body, curve, group, pub, alg, sig, cr, sr, cert, g1.near hn, g2, hn.random _ g3, hn.peerRandom.trans g4,
    by rw [hn.peerCerts]; exact g5, g6⟩

end mono

namespace Client

/-- The certificate has not come yet. -/
def certless : CSt → Bool
  | .sendClientHello | .awaitHelloVerifyRequest | .awaitServerHello | .awaitCertificate => true
  | _ => false

/-- The ServerHello has come. -/
def helloed : CSt → Bool
  | .sendClientHello | .awaitHelloVerifyRequest | .awaitServerHello | .closed => false
  | _ => true

/-- The key exchange has come. -/
def keyed : CSt → Bool
  | .awaitCertificate | .awaitServerKeyExchange => false
  | st => helloed st

structure Stage (env : PEnv) (st : CSt) (s : Ses CSt) : Prop where
  none : certless st = true → s.peerCerts = []
  hello : helloed st = true → ServerHelloOk env s
  ske : keyed st = true → SkeOk env s
  cert : CertIn env s
  fin : st = .awaitApplicationData → FinOk env false s

/-- What a connected client has checked. -/
structure Done (env : PEnv) (s : Ses CSt) : Prop where
  hello : ServerHelloOk env s
  ske : SkeOk env s
  cert : CertIn env s
  fin : FinOk env false s

variable {env : PEnv}

theorem next_le (x new : CSt) (hn : new ∈ C12.next x) (h1 : x ≠ .awaitServerHello)
    (h2 : x ≠ .awaitServerKeyExchange) (h3 : x ≠ .awaitFinished) :
    (certless new = true → certless x = true) ∧ (helloed new = true → helloed x = true) ∧
    (keyed new = true → keyed x = true) ∧
    (new = .awaitApplicationData → x = .awaitApplicationData) := by
  revert hn h1 h2 h3
  cases x <;> cases new <;> decide

/-- Certificates that never came are not there. -/
theorem certIn_nil {St : Type} {s : Ses St} (h : s.peerCerts = []) : CertIn env s := by
  intro c hc; rw [h] at hc; cases hc

theorem Stage.near {st : CSt} {s s' : Ses CSt} (h : Stage env st s) (hn : Near s s')
    (hf : st = .awaitApplicationData → FinOk env false s') : Stage env st s' :=
  ⟨fun g => hn.peerCerts.trans (h.none g), fun g => (h.hello g).near hn, fun g => (h.ske g).near hn,
    h.cert.near hn, hf⟩

theorem awaitHelloVerifyRequest_stage (s : Ses CSt) (h : Stage env .awaitHelloVerifyRequest s) :
    wp (C12.awaitHelloVerifyRequest env) s (fun new s' => s'.st = s.st ∧ Stage env new s')
      (fun _ s' => s'.st = s.st ∧ Stage env .awaitHelloVerifyRequest s') := by
  have hp : Proj (fun s : Ses CSt => (s.peerCerts, s.st)) := fun _ _ _ => rfl
  have hk : Keeps (fun s : Ses CSt => (s.peerCerts, s.st)) (C12.awaitHelloVerifyRequest env) := by
    unfold C12.awaitHelloVerifyRequest; simp only [bind_eq, pure_eq]; keeps
  have hk := hk s
  have h0 : (C12.awaitHelloVerifyRequest env s).2.peerCerts = [] := (congrArg Prod.fst hk).trans (h.none rfl)
  have h1 : (C12.awaitHelloVerifyRequest env s).2.st = s.st := congrArg Prod.snd hk
  have hw := wp_and (to_wp (m := C12.awaitHelloVerifyRequest env) (s := s)
    (R := fun s' => s'.peerCerts = [] ∧ s'.st = s.st) ⟨h0, h1⟩)
    (Rets.wp (C12.step_next (env := env) .awaitHelloVerifyRequest) s)
  refine wp_mono hw ?_ ?_
  · rintro new s' ⟨⟨g1, g2⟩, hn⟩
    refine ⟨g2, fun _ => g1, ?_, ?_, certIn_nil g1, ?_⟩
    all_goals
      simp only [C12.next, List.mem_cons, List.not_mem_nil, or_false] at hn
      rcases hn with rfl | rfl | rfl <;> nofun
  · rintro _ s' ⟨⟨g1, g2⟩, _⟩
    exact ⟨g2, fun _ => g1, nofun, nofun, certIn_nil g1, nofun⟩

theorem awaitServerHello_stage (s : Ses CSt) (h : Stage env .awaitServerHello s) :
    wp (C12.awaitServerHello env) s (fun new s' => s'.st = s.st ∧ Stage env new s')
      (fun _ s' => s'.st = s.st ∧ Stage env .awaitServerHello s') := by
  have h0 := h.none rfl
  have bad : ∀ s' : Ses CSt, s'.st = s.st → s'.peerCerts = [] → s'.st = s.st ∧ Stage env .awaitServerHello s' :=
    fun s' g1 g2 => ⟨g1, fun _ => g2, nofun, nofun, certIn_nil g2, nofun⟩
  have exts : ∀ l b (s' : Ses CSt), wp (C12.serverExtensions env l b) s'
      (fun _ t => ∃ p, t = { s' with srtp := p }) (fun _ t => ∃ p, t = { s' with srtp := p }) := by
    intro l
    induction l with
    | nil => exact fun b s' => ⟨s'.srtp, rfl⟩
    | cons x rest ih =>
      obtain ⟨t, d⟩ := x
      intro b s'
      unfold C12.serverExtensions
      simp only [bind_eq]
      split
      · rw [wp_bind]
        refine wp_orTransient_of (fun ps _ => ?_) ⟨s'.srtp, rfl⟩
        split
        · exact ih _ _
        · rw [wp_bind, wp_modify]
          refine wp_mono (ih _ _) ?_ ?_
          · rintro _ t ⟨p, rfl⟩; exact ⟨p, rfl⟩
          · rintro _ t ⟨p, rfl⟩; exact ⟨p, rfl⟩
      · exact ih _ _
  unfold C12.awaitServerHello
  simp only [bind_eq, pure_eq, wp_bind, wp_onEng]
  refine wp_mono (nextHandshake_ok env.toEnv mtServerHello s.eng (by decide)) ?_ ?_
  · rintro m e ⟨hg, ⟨rfl, rfl⟩ | ⟨b, seq, body, rfl, hlog, hp, htr⟩⟩
    · exact ⟨rfl, h⟩
    · obtain ⟨x, rfl, hx⟩ := parseBody_serverHello hp
      dsimp only
      simp only [wp_bind]
      refine wp_check_of (fun hv => ?_) (bad _ rfl h0)
      refine wp_check_of (fun _ => ?_) (bad _ rfl h0)
      refine wp_check_of (fun _ => ?_) (bad _ rfl h0)
      refine wp_check_of (fun hcomp => ?_) (bad _ rfl h0)
      refine wp_check_of (fun hall => ?_) (bad _ rfl h0)
      rw [wp_onEng]
      refine wp_mono (setCipherSuite_wp ..) ?_ ?_
      · rintro _ e2 ⟨_, _, rfl⟩
        simp only [wp_modify]
        refine wp_orFatal_of (fun exts' _ => ?_) (bad _ rfl h0)
        refine wp_mono (exts _ _ _) ?_ ?_
        · rintro ems t ⟨p, rfl⟩
          refine wp_check_of (fun _ => ?_) (bad _ rfl h0)
          rw [wp_pure]
          refine ⟨rfl, fun _ => h0, fun _ => ?_, ?_, certIn_nil h0, ?_⟩
          · refine ⟨body, x, ⟨seq, ?_⟩, hx, ?_, rfl, rfl, ?_, hcomp⟩
            · show _ ∈ e.log
              rw [hlog]; simp
            · simpa using hv
            · simpa using hall
          · split <;> nofun
          · split <;> nofun
        · rintro _ t ⟨p, rfl⟩
          exact bad _ rfl h0
      · rintro _ e2 rfl
        exact bad _ rfl h0
  · intro _ e _
    exact ⟨by trivial, (bad { s with eng := e } rfl h0).2⟩

theorem awaitCertificate_stage (s : Ses CSt) (h : Stage env .awaitCertificate s) :
    wp (C12.awaitCertificate env) s (fun new s' => s'.st = s.st ∧ Stage env new s')
      (fun _ s' => s'.st = s.st ∧ Stage env .awaitCertificate s') := by
  have h0 := h.none rfl
  unfold C12.awaitCertificate
  simp only [bind_eq, pure_eq, wp_bind, wp_onEng]
  refine wp_mono (nextHandshake_ok env.toEnv mtCertificate s.eng (by decide)) ?_ ?_
  · rintro m e ⟨hg, ⟨rfl, rfl⟩ | ⟨b, seq, body, rfl, hlog, hp, htr⟩⟩
    · exact ⟨rfl, h⟩
    · obtain ⟨x, rfl, hx⟩ := parseBody_certificate hp
      have hn : Near s { s with eng := e } := Near.rel.eng _ _ hg
      dsimp only
      simp only [wp_bind]
      refine wp_check_of (fun _ => ?_) ⟨rfl, h.near hn nofun⟩
      rw [wp_modify, wp_pure]
      refine ⟨rfl, nofun, fun _ => ?_, nofun, ?_, nofun⟩
      · obtain ⟨b, x, h1, h2, h3, h4, h5, h6⟩ := (h.hello rfl).near hn
        exact ⟨b, x, h1, h2, h3, h4, h5, h6⟩
      · intro c hc
        refine ⟨body, x, ⟨seq, ?_⟩, hx, ?_⟩
        · show _ ∈ e.log
          rw [hlog]; simp
        · have hc : (s.peerCerts ++ x).head? = some c := hc
          rwa [h0, List.nil_append] at hc
  · intro _ e hg
    exact ⟨by trivial, h.near (Near.rel.eng _ _ hg) nofun⟩

theorem processEcdh_near (g : Nat) (p : Bytes) : SFr Near (C12.processEcdh env g p) := by
  have hf := Near.rel (St := CSt)
  unfold C12.processEcdh; simp only [bind_eq]; sfr hf

theorem awaitServerKeyExchange_stage (s : Ses CSt) (h : Stage env .awaitServerKeyExchange s) :
    wp (C12.awaitServerKeyExchange env) s (fun new s' => s'.st = s.st ∧ Stage env new s')
      (fun _ s' => s'.st = s.st ∧ Stage env .awaitServerKeyExchange s') := by
  unfold C12.awaitServerKeyExchange
  simp only [bind_eq, wp_bind, wp_get]
  refine wp_orFatal_of (fun cs hcs => ?_) ⟨rfl, h⟩
  -- what is needed to leave the state
  have leave : ∀ {new s'}, Near s s' → new = .awaitCertificateRequest ∨ new = .awaitServerHelloDone →
      SkeOk env s' → Stage env new s' := by
    intro new s' hn hnew hs
    refine ⟨?_, fun _ => (h.hello rfl).near hn, fun _ => hs, h.cert.near hn, ?_⟩
    · rcases hnew with rfl | rfl <;> nofun
    · rcases hnew with rfl | rfl <;> nofun
  split
  · rename_i hpsk
    unfold C12.awaitServerKeyExchangePsk
    simp only [bind_eq, pure_eq, wp_bind, wp_get]
    have fin : ∀ {s'}, Near s s' → Stage env .awaitServerHelloDone s' :=
      fun hn => leave hn (.inr rfl) ⟨cs, hn.suite.trans hcs, .inl hpsk⟩
    split
    · exact ⟨rfl, fin (Near.rel.refl _)⟩
    · simp only [wp_bind, wp_onEng]
      refine wp_mono (nextHandshake_ok env.toEnv mtServerKeyExchange s.eng (by decide)) ?_ ?_
      · rintro m e ⟨hg, _⟩
        have hn : Near s { s with eng := e } := Near.rel.eng _ _ hg
        split
        · exact ⟨rfl, h.near hn nofun⟩
        · exact ⟨rfl, fin hn⟩
        · exact ⟨rfl, h.near hn nofun⟩
        · exact ⟨rfl, h.near hn nofun⟩
      · intro _ e hg
        exact ⟨by trivial, h.near (Near.rel.eng _ _ hg) nofun⟩
  · unfold C12.awaitServerKeyExchangeEcdhe
    simp only [bind_eq, pure_eq, wp_bind, wp_onEng]
    refine wp_mono (nextHandshake_ok env.toEnv mtServerKeyExchange s.eng (by decide)) ?_ ?_
    · rintro m e ⟨hg, ⟨rfl, rfl⟩ | ⟨b, seq, body, rfl, hlog, hp, htr⟩⟩
      · exact ⟨rfl, h⟩
      have hn : Near s { s with eng := e } := Near.rel.eng _ _ hg
      have bad : ({ s with eng := e } : Ses CSt).st = s.st ∧ Stage env .awaitServerKeyExchange { s with eng := e } :=
        ⟨rfl, h.near hn nofun⟩
      split
      · rename_i heq; cases heq
      · rename_i curve group pub alg sig heq
        cases heq
        obtain ⟨cs', x, hsu, hx, hpx⟩ := parseBody_serverKx hp
        cases hx
        rw [hcs] at hsu
        cases hsu
        simp only [wp_bind, wp_get]
        refine wp_orPanic_of (fun cr hcr => ?_) bad
        refine wp_orPanic_of (fun sr hsr => ?_) bad
        refine wp_check_of (fun halg => ?_) bad
        refine wp_check_of (fun _ => ?_) bad
        refine wp_orPanic_of (fun cert hcert => ?_) bad
        refine wp_check_of (fun hver => ?_) bad
        have hok : SkeOk env ({ s with eng := e } : Ses CSt) := by
          refine ⟨cs, hg.suite.trans hcs, .inr ⟨body, curve, group, pub, alg, sig, cr, sr, cert, ⟨seq, ?_⟩, hpx,
            hcr, hsr, hcert, ?_, hver⟩⟩
          · show _ ∈ e.log
            rw [hlog]; simp
          · simpa [supportedSigs] using halg
        refine wp_mono (SFr.wp (processEcdh_near group pub) _) ?_ ?_
        · rintro _ s' ⟨hn', hst⟩
          rw [wp_pure]
          exact ⟨hst, leave (Near.rel.trans _ _ _ hn hn') (.inl rfl) (hok.near hn')⟩
        · rintro _ s' ⟨hn', hst⟩
          exact ⟨hst, h.near (Near.rel.trans _ _ _ hn hn') nofun⟩
      · exact bad
      · exact bad
    · intro _ e hg
      exact ⟨by trivial, h.near (Near.rel.eng _ _ hg) nofun⟩

theorem awaitFinished_stage (s : Ses CSt) (h : Stage env .awaitFinished s) :
    wp (C12.awaitFinished env) s (fun new s' => s'.st = s.st ∧ Stage env new s')
      (fun _ s' => s'.st = s.st ∧ Stage env .awaitFinished s') := by
  unfold C12.awaitFinished
  simp only [bind_eq, pure_eq, wp_bind, wp_onEng]
  apply wp_of
  · intro v e he
    obtain ⟨m, cs, hm, hcs, hv, rfl⟩ := generateVerifyData_ok he
    refine wp_mono (nextHandshake_ok env.toEnv mtFinished s.eng (by decide)) ?_ ?_
    · rintro mm e ⟨hg, ⟨rfl, rfl⟩ | ⟨b, seq, body, rfl, hlog, hp, htr⟩⟩
      · exact ⟨rfl, h⟩
      have hn : Near s { s with eng := e } := Near.rel.eng _ _ hg
      obtain ⟨cs', x, hsu, rfl, hx⟩ := parseBody_finished hp
      rw [hcs] at hsu; cases hsu
      dsimp only
      rw [wp_bind]
      refine wp_check_of (fun hc => ?_) ⟨rfl, h.near hn nofun⟩
      have hc : x = v := by simpa using hc
      subst hc
      have hfin : FinOk env false ({ s with eng := e } : Ses CSt) := by
        refine ⟨m, cs, s.eng.transcript, seq, body, x, hg.master.trans hm, hg.suite.trans hcs, ?_, ⟨[], ?_⟩, hx, hv⟩
        · show _ ∈ e.log
          rw [hlog]; simp
        · rw [List.append_nil]; exact htr
      refine wp_mono (wp_and (SFr.wp (announce_later (env := env) CSt.awaitApplicationData (·.random) (·.peerRandom)) _)
        (Rets.wp (announceConnected_rets (S := (· = CSt.awaitApplicationData)) rfl _ _) _)) ?_ ?_
      · rintro new s' ⟨⟨hl, hst⟩, rfl⟩
        have hn' := Near.rel.trans _ _ _ hn hl.toNear
        exact ⟨hst, nofun, fun _ => (h.hello rfl).near hn', fun _ => (h.ske rfl).near hn', h.cert.near hn',
          fun _ => hfin.later hl⟩
      · rintro _ s' ⟨⟨hl, hst⟩, _⟩
        exact ⟨hst, h.near (Near.rel.trans _ _ _ hn hl.toNear) nofun⟩
    · intro _ e hg
      exact ⟨by trivial, h.near (Near.rel.eng _ _ hg) nofun⟩
  · intro f e he
    have : e = s.eng := by
      have := generateVerifyData_snd env.toEnv false s.eng
      rw [he] at this
      exact this
    subst this
    exact ⟨by trivial, h⟩

theorem saga : Saga C12.role env (Stage env) (Done env) where
  later st s s' hl h := h.near hl.toNear fun g => (h.fin g).later hl.toLater
  closed st s h := ⟨nofun, nofun, nofun, h.cert, nofun⟩
  app s h := ⟨h.hello rfl, h.ske rfl, h.cert, h.fin rfl⟩
  done s s' hl h := ⟨h.hello.near hl.toNear, h.ske.near hl.toNear, h.cert.near hl.toNear, h.fin.later hl.toLater⟩
  step st s h := by
    have quick : st ≠ .awaitServerHello → st ≠ .awaitServerKeyExchange → st ≠ .awaitFinished →
        st ≠ .awaitCertificate → st ≠ .awaitHelloVerifyRequest → wp (C12.step env st) s (fun new s' => s'.st = s.st ∧ Stage env new s')
          (fun _ s' => s'.st = s.st ∧ Stage env st s') := by
      intro h1 h2 h3 h4 h5
      by_cases ha : st = .awaitApplicationData
      · subst ha
        refine wp_mono (wp_and (SFr.wp (app_later (env := env) CSt.awaitApplicationData CSt.closed) s)
          (Rets.wp (C12.step_next (env := env) .awaitApplicationData) s)) ?_ ?_
        · rintro new s' ⟨⟨hl, hst⟩, hn⟩
          obtain ⟨n1, n2, n3, n4⟩ := next_le _ _ hn nofun nofun nofun
          have hs : Stage env .awaitApplicationData s' := h.near hl.toNear fun g => (h.fin g).later hl
          exact ⟨hst, fun g => hs.none (n1 g), fun g => hs.hello (n2 g), fun g => hs.ske (n3 g), hs.cert,
            fun g => hs.fin (n4 g)⟩
        · rintro _ s' ⟨⟨hl, hst⟩, _⟩
          exact ⟨hst, h.near hl.toNear fun g => (h.fin g).later hl⟩
      · refine wp_mono (wp_and (SFr.wp (C12.step_near (env := env) st h1 h4 h5) s)
          (Rets.wp (C12.step_next (env := env) st) s)) ?_ ?_
        · rintro new s' ⟨⟨hl, hst⟩, hn⟩
          obtain ⟨n1, n2, n3, n4⟩ := next_le _ _ hn h1 h2 h3
          have hs : Stage env st s' := h.near hl fun g => absurd g ha
          exact ⟨hst, fun g => hs.none (n1 g), fun g => hs.hello (n2 g), fun g => hs.ske (n3 g), hs.cert,
            fun g => absurd (n4 g) ha⟩
        · rintro _ s' ⟨⟨hl, hst⟩, _⟩
          exact ⟨hst, h.near hl fun g => absurd g ha⟩
    by_cases h1 : st = .awaitServerHello
    · subst h1; exact awaitServerHello_stage s h
    by_cases h2 : st = .awaitServerKeyExchange
    · subst h2; exact awaitServerKeyExchange_stage s h
    by_cases h3 : st = .awaitFinished
    · subst h3; exact awaitFinished_stage s h
    by_cases h4 : st = .awaitCertificate
    · subst h4; exact awaitCertificate_stage s h
    by_cases h5 : st = .awaitHelloVerifyRequest
    · subst h5; exact awaitHelloVerifyRequest_stage s h
    exact quick h1 h2 h3 h4 h5


/-- The ways in which a client begins. -/
inductive Begins (env : PEnv) (cfg : Cfg) : Ses CSt → Prop
  | plain (now : Nat) : Begins env cfg (C12.start env cfg now)
  | hybrid (random fragment : Bytes) (now : Nat) : Begins env cfg (C12.startHybrid env cfg random fragment now)

theorem Begins.start {cfg : Cfg} {s0 : Ses CSt} (h : Begins env cfg s0) : Start env cfg C12.role s0 := by
  cases h
  · exact .client _
  · exact .hybrid _ _ _

theorem start_onTrack {cfg : Cfg} {s0 : Ses CSt} (h : Begins env cfg s0) :
    OnTrack C12.role (Stage env) (Done env) s0 := by
  cases h with
  | plain now => exact ⟨⟨fun _ => rfl, nofun, nofun, certIn_nil rfl, nofun⟩, nofun, nofun⟩
  | hybrid random fragment now => exact ⟨⟨fun _ => rfl, nofun, nofun, certIn_nil rfl, nofun⟩, nofun, nofun⟩

theorem onTrack {cfg : Cfg} {s0 : Ses CSt} (h : Begins env cfg s0) (cs : List Call) :
    OnTrack C12.role (Stage env) (Done env) (run C12.role env s0 cs).2 :=
  (Saga.stable C12.showRule (C12.roleOk env) saga).run _ cs (fun _ _ => trivial) (start_onTrack h)

end Client

/-- **C40, client.** Connected is queued at most once, and then the client has received a ServerHello
naming a suite it allows, a Finished with the verify_data for the transcript before it and, unless the
suite is a PSK suite, a key exchange signed under the first certificate of the server's Certificate
message over both randoms. -/
theorem client_connected {env : PEnv} {cfg : Cfg} {s0 : Ses CSt} (h : Client.Begins env cfg s0)
    (hd : DecShort env.toEnv) (cs : List Call) :
    let r := run C12.role env s0 cs
    (outputs r.1).count .connected + r.2.events.count .connected ≤ 1 ∧
    (0 < (outputs r.1).count .connected + r.2.events.count .connected → Client.Done env r.2) := by
  intro r
  obtain ⟨p, hh⟩ := h.start.hist hd cs
  have hc : (outputs r.1).count .connected + r.2.events.count .connected = if r.2.eng.release then 1 else 0 := hh.conn
  constructor
  · rw [hc]; split <;> decide
  · intro g
    rw [hc] at g
    refine (Client.onTrack h cs).done ?_
    cases hb : r.2.eng.release with
    | true => rfl
    | false => rw [hb] at g; exact absurd g (by decide)

/-- **C44, client.** Past the ServerHello, the suite in use is the one it named, is configured and fits
the key. -/
theorem client_negotiated {env : PEnv} {cfg : Cfg} {s0 : Ses CSt} (h : Client.Begins env cfg s0)
    (cs : List Call) :
    let s := (run C12.role env s0 cs).2
    s.st ∉ [CSt.sendClientHello, .awaitHelloVerifyRequest, .awaitServerHello, .closed] → ServerHelloOk env s := by
  intro s g
  refine (Client.onTrack h cs).stage.hello ?_
  exact (by intro x; cases x <;> decide : ∀ x : CSt, x ∉ [CSt.sendClientHello, .awaitHelloVerifyRequest,
    .awaitServerHello, .closed] → Client.helloed x = true) _ g

end Verif.Props.Shake12

import Verif.Props.Shake13
import Verif.Lemmas.Ready13
/-!
# What a DTLS 1.3 server checked before it reports Connected (C17, C41, C42, C44)
-/
namespace Verif.Props.Shake13
open Verif Wire Window Timer Aead M E13
open Verif.E12 (Call Output outputs)

/-- `x` is the first of `l` with the property. -/
def FirstOf {α : Type} (ok : α → Prop) (l : List α) (x : α) : Prop :=
  ∃ pre post, l = pre ++ x :: post ∧ ok x ∧ ∀ y ∈ pre, ¬ ok y

/-- The ClientHello the server went on with offers DTLS 1.3. The suite in use is the first of the client's
that is configured; the cookie, if one is required, is the one for the client's random; the SRTP profile is
the first of the client's that is supported; and `shared` comes from the client's first key share in a
configured group, `group`, for which the server's own share is `ours`. `full` is the transcript it is looked
for in. -/
def HelloOk {St : Type} (env : PEnv) (s : Ses St) (shared : Bytes) (group : Nat) (ours full : Bytes) : Prop :=
  ∃ allow body ch cs pre,
    Got s mtClientHello body ∧ At full pre mtClientHello body ∧
    env.parseClientHello allow body = some ([], ch) ∧ ch.version = 0xFEFD ∧
    s.eng.suite = some cs ∧ FirstOf (· ∈ env.allowed) ch.suites cs ∧
    (∃ d vs, (43, d) ∈ ch.exts ∧ env.parseClientVersions d = some vs ∧ 0xFEFC ∈ vs) ∧
    (env.useCookie = true → ∃ d c, (44, d) ∈ ch.exts ∧ env.parseCookie d = some c ∧
      env.hmac env.cookieSecret ch.random = some c) ∧
    (∀ p, s.srtp = some p → ∃ d ps, (14, d) ∈ ch.exts ∧ env.parseUseSrtp d = some ps ∧
      FirstOf (· ∈ [8, 7, 1]) ps p) ∧
    ∃ d ks n pub, (51, d) ∈ ch.exts ∧ env.parseClientShares d = some ks ∧
      FirstOf (fun k => k.1 ∈ env.groups) ks (group, pub) ∧
      env.kxStart n group = some ours ∧ env.kxComplete n group pub = some shared

/-- The key share can be written. -/
def Small (group : Nat) (ours : Bytes) : Prop := group < 2 ^ 16 ∧ ours.length < 2 ^ 32

/-- A ServerHello with the suite in use and this share stands in `full`. -/
def Answered {St : Type} (env : PEnv) (s : Ses St) (group : Nat) (ours full : Bytes) : Prop :=
  ∃ random cs pre, s.eng.suite = some cs ∧ At full pre mtServerHello (env.serverHelloBody random cs group ours)

/-- The server went on with a ClientHello, answered with a ServerHello naming the suite in use, and the
traffic secrets are derived from the client's share and the transcript up to there. That ServerHello has the
server's own share, or there is an earlier one that has, at which `send_server_hello` failed. -/
def ClientHelloOk {St : Type} (env : PEnv) (s : Ses St) (full : Bytes) : Prop :=
  ∃ shared cs pre pre0 random group pub post group' ours, full = pre ++ post ∧ s.eng.suite = some cs ∧
    HelloOk env s shared group' ours pre0 ∧
    At pre pre0 mtServerHello (env.serverHelloBody random cs group pub) ∧
    SecretsFrom env s cs shared pre ∧
    (Small group' ours → (group = group' ∧ pub = ours) ∨ Answered env s group' ours pre0)

/-- The client sent no certificate, which it had to say in a Certificate message if one was required, or it
sent some and its CertificateVerify signs the transcript before it under the first of them. -/
def ClientAuth {St : Type} (env : PEnv) (s : Ses St) (full : Bytes) : Prop :=
  (s.peerCerts = [] ∧ (env.requireClientCert = true → ∃ body ctx, Got s mtCertificate body ∧
    env.parseCertificate body = some ([], (ctx, [])))) ∨
  (CertIn env s ∧ CvOk env clientContext s full)

section mono
variable {St : Type} {env : PEnv} {s s' : Ses St}

theorem HelloOk.near {x : Bytes} {g : Nat} {o full : Bytes} (h : HelloOk env s x g o full) (hn : Near s s')
    (hsr : s'.srtp = s.srtp) : HelloOk env s' x g o full := by
  obtain ⟨a, b, ch, cs, pre, h1, h2, h3, h4, h5, h6, h7, h8, h9, h10⟩ := h
  exact ⟨a, b, ch, cs, pre, h1.near hn, h2, h3, h4, hn.grow.suite.trans h5, h6, h7, h8,
    by rw [hsr]; exact h9, h10⟩

theorem HelloOk.later {x : Bytes} {g : Nat} {o full : Bytes} (h : HelloOk env s x g o full) (hn : Later s s') :
    HelloOk env s' x g o full := h.near hn.toNear hn.srtp

theorem Answered.near {g : Nat} {o full : Bytes} (h : Answered env s g o full) (hn : Near s s') :
    Answered env s' g o full := by
  obtain ⟨r, cs, pre, h1, h2⟩ := h
  exact ⟨r, cs, pre, hn.grow.suite.trans h1, h2⟩

theorem Answered.append {g : Nat} {o full : Bytes} (h : Answered env s g o full) (y : Bytes) :
    Answered env s g o (full ++ y) := by
  obtain ⟨r, cs, pre, h1, h2⟩ := h
  exact ⟨r, cs, pre, h1, h2.append y⟩

theorem HelloOk.append {x : Bytes} {g : Nat} {o full : Bytes} (h : HelloOk env s x g o full) (y : Bytes) :
    HelloOk env s x g o (full ++ y) := by
  obtain ⟨a, b, ch, cs, pre, h1, h2, h3⟩ := h
  exact ⟨a, b, ch, cs, pre, h1, h2.append y, h3⟩

theorem ClientHelloOk.later {full : Bytes} (h : ClientHelloOk env s full) (hn : Later s s') :
    ClientHelloOk env s' full := by
  obtain ⟨sh, cs, pre, pre0, a, b, c, d, g, o, h1, h2, h3, h4, h5, h6⟩ := h
  exact ⟨sh, cs, pre, pre0, a, b, c, d, g, o, h1, hn.grow.suite.trans h2, h3.later hn, h4, h5.near hn.toNear,
    fun h => (h6 h).imp_right (·.near hn.toNear)⟩

theorem ClientHelloOk.append {full : Bytes} (h : ClientHelloOk env s full) (x : Bytes) :
    ClientHelloOk env s (full ++ x) := by
  obtain ⟨sh, cs, pre, pre0, a, b, c, d, g, o, h1, h2⟩ := h
  exact ⟨sh, cs, pre, pre0, a, b, c, d ++ x, g, o, by rw [h1, List.append_assoc], h2⟩

theorem ClientAuth.near {full : Bytes} (h : ClientAuth env s full) (hn : Near s s') : ClientAuth env s' full := by
  rcases h with ⟨h1, h2⟩ | ⟨h1, h2⟩
  · refine .inl ⟨hn.peerCerts.trans h1, fun h => ?_⟩
    obtain ⟨b, c, g1, g2⟩ := h2 h
    exact ⟨b, c, g1.near hn, g2⟩
  · exact .inr ⟨h1.near hn, h2.near hn⟩

theorem ClientAuth.append {full : Bytes} (h : ClientAuth env s full) (x : Bytes) :
    ClientAuth env s (full ++ x) := h.imp_right fun h => ⟨h.1, h.2.append x⟩

end mono

namespace Server
variable {env : PEnv}

/-- What a connected server has checked. The transcript the client's Finished covers has all the rest
in it. -/
structure Done (env : PEnv) (s : Ses SSt) : Prop where
  fin : ∃ pre, FinOk env s.clientHs s pre ∧ ClientHelloOk env s pre ∧ ClientAuth env s pre

theorem Done.later {s s' : Ses SSt} (h : Done env s) (hn : Later s s') : Done env s' := by
  obtain ⟨pre, h2, h3, h4⟩ := h
  exact ⟨pre, by rw [hn.clientHs]; exact h2.near hn.toNear, h3.later hn, h4.near hn.toNear⟩

/-- What each state knows. -/
def Stage (env : PEnv) (st : SSt) (s : Ses SSt) : Prop :=
  match st with
  | .awaitClientHello => s.peerCerts = [] ∧ s.srtp = none
  | .sendServerHello => s.peerCerts = [] ∧ ∀ x, s.shared = some x →
    ∃ g o, HelloOk env s x g o s.eng.transcript ∧
      (Small g o → s.extData = S13.packShare g o ∨ Answered env s g o s.eng.transcript)
  | .sendEncryptedExtensions | .sendCertificateRequest | .awaitCertificate =>
    s.peerCerts = [] ∧ ClientHelloOk env s s.eng.transcript
  | .sendCertificate | .sendCertificateVerify | .sendFinished =>
    s.peerCerts = [] ∧ ClientHelloOk env s s.eng.transcript ∧
      (env.requireClientCert = true → s.authRequested = true)
  | .awaitCertificateVerify => CertIn env s ∧ ClientHelloOk env s s.eng.transcript
  | .awaitFinished => ClientAuth env s s.eng.transcript ∧ ClientHelloOk env s s.eng.transcript
  | .awaitApplicationData | .halfClosedLocal => Done env s
  | .closed => True

theorem hello_later {s s' : Ses SSt} (hn : Later s s') (h : ClientHelloOk env s s.eng.transcript) :
    ClientHelloOk env s' s'.eng.transcript :=
  here (Q := ClientHelloOk env) hn.toNear h (fun _ h => h.later hn) (fun _ x h => h.append x)

theorem Stage.later {st : SSt} {s s' : Ses SSt} (h : Stage env st s) (hn : Later s s') : Stage env st s' := by
  cases st
  case awaitClientHello => exact ⟨hn.peerCerts.trans h.1, hn.srtp.trans h.2⟩
  case sendServerHello =>
    refine ⟨hn.peerCerts.trans h.1, fun x hx => ?_⟩
    rw [hn.shared] at hx
    obtain ⟨g, o, h1, h2⟩ := h.2 x hx
    refine ⟨g, o, here (Q := fun s f => HelloOk env s x g o f) hn.toNear h1 (fun _ h => h.later hn)
      (fun _ y h => h.append y), fun hs => (h2 hs).imp (hn.extData.trans ·) fun h2 => ?_⟩
    exact here (Q := fun s f => Answered env s g o f) hn.toNear h2 (fun _ h => h.near hn.toNear)
      (fun _ y h => h.append y)
  case sendEncryptedExtensions => exact ⟨hn.peerCerts.trans h.1, hello_later hn h.2⟩
  case sendCertificateRequest => exact ⟨hn.peerCerts.trans h.1, hello_later hn h.2⟩
  case awaitCertificate => exact ⟨hn.peerCerts.trans h.1, hello_later hn h.2⟩
  case sendCertificate =>
    exact ⟨hn.peerCerts.trans h.1, hello_later hn h.2.1, by rw [hn.authRequested]; exact h.2.2⟩
  case sendCertificateVerify =>
    exact ⟨hn.peerCerts.trans h.1, hello_later hn h.2.1, by rw [hn.authRequested]; exact h.2.2⟩
  case sendFinished =>
    exact ⟨hn.peerCerts.trans h.1, hello_later hn h.2.1, by rw [hn.authRequested]; exact h.2.2⟩
  case awaitCertificateVerify => exact ⟨h.1.near hn.toNear, hello_later hn h.2⟩
  case awaitFinished =>
    exact ⟨here (Q := ClientAuth env) hn.toNear h.1 (fun _ h => h.near hn.toNear) (fun _ x h => h.append x),
      hello_later hn h.2⟩
  case closed => trivial
  all_goals exact Done.later h hn

/-- A failure that leaves all as it is, or ends the process. -/
def Quiet (env : PEnv) (s : Ses SSt) (f : Fault) (s' : Ses SSt) : Prop :=
  s'.st = s.st ∧
    ((Stage env s.st s' ∧ s'.eng.release = false ∧
        s'.events.count .connected = s.events.count .connected) ∨
      (gone f ∧ s'.events.count .connected = s.events.count .connected) ∨
      (gone f ∧ s'.events.count .connected = s.events.count .connected + 1 ∧ Done env s'))

/-- What `Saga.step` asks for. -/
def Good (env : PEnv) (s : Ses SSt) (new : SSt) (s' : Ses SSt) : Prop :=
  s'.st = s.st ∧ Stage env new s' ∧
    ((new = .awaitApplicationData ∧ s'.eng.release = true ∧
        s'.events.count .connected = s.events.count .connected + 1) ∨
      (s'.eng.release = false ∧ s'.events.count .connected = s.events.count .connected))

theorem at_stage {st : SSt} {s s' : Ses SSt} (h : s.st = st) (g : Stage env st s') : Stage env s.st s' := h ▸ g

theorem quiet_later {s s' : Ses SSt} (hs : Stage env s.st s) (hr : s.eng.release = false) (h : Later s s')
    (h2 : s'.st = s.st) (f : Fault) : Quiet env s f s' :=
  ⟨h2, .inl ⟨hs.later h, h.grow.release.trans hr, h.told⟩⟩

theorem good_later {s s' : Ses SSt} {new : SSt} (hs : Stage env new s) (hr : s.eng.release = false)
    (h : Later s s') (h2 : s'.st = s.st) : Good env s new s' :=
  ⟨h2, hs.later h, .inr ⟨h.grow.release.trans hr, h.told⟩⟩

/-! ### The ClientHello -/

theorem find_first {α : Type} {p : α → Bool} {l : List α} {x : α} (h : l.find? p = some x) :
    FirstOf (fun y => p y = true) l x := by
  induction l with
  | nil => cases h
  | cons y rest ih =>
    rw [List.find?_cons] at h
    split at h
    · cases h; exact ⟨[], rest, rfl, by assumption, fun _ h => nomatch h⟩
    · next hp =>
      obtain ⟨pre, post, h1, h2, h3⟩ := ih h
      refine ⟨y :: pre, post, by rw [h1]; rfl, h2, fun z hz => ?_⟩
      rcases List.mem_cons.mp hz with rfl | hz
      · simp [hp]
      · exact h3 z hz

theorem FirstOf.imp {α : Type} {p q : α → Prop} {l : List α} {x : α} (h : FirstOf p l x)
    (hi : ∀ y, p y ↔ q y) : FirstOf q l x := by
  obtain ⟨pre, post, h1, h2, h3⟩ := h
  exact ⟨pre, post, h1, (hi _).mp h2, fun y hy g => h3 y hy ((hi _).mpr g)⟩

/-- Where what the extension loop collected is from. -/
structure From (env : PEnv) (l : List (Nat × Bytes)) (x y : S13.ChExts) : Prop where
  version : y.version = true → x.version = true ∨
    ∃ d vs, (43, d) ∈ l ∧ env.parseClientVersions d = some vs ∧ verDtls13 ∈ vs
  shares : ∀ ks, y.shares = some ks → x.shares = some ks ∨ ∃ d, (51, d) ∈ l ∧ env.parseClientShares d = some ks
  srtp : ∀ ps, y.srtp = some ps → x.srtp = some ps ∨ ∃ d, (14, d) ∈ l ∧ env.parseUseSrtp d = some ps
  cookie : ∀ c, y.cookie = some c → x.cookie = some c ∨ ∃ d, (44, d) ∈ l ∧ env.parseCookie d = some c

theorem From.cons {l : List (Nat × Bytes)} {x y : S13.ChExts} (h : From env l x y) (e : Nat × Bytes) :
    From env (e :: l) x y :=
  ⟨fun g => (h.version g).imp_right fun ⟨d, vs, h1, h2⟩ => ⟨d, vs, List.mem_cons_of_mem _ h1, h2⟩,
    fun k g => (h.shares k g).imp_right fun ⟨d, h1, h2⟩ => ⟨d, List.mem_cons_of_mem _ h1, h2⟩,
    fun k g => (h.srtp k g).imp_right fun ⟨d, h1, h2⟩ => ⟨d, List.mem_cons_of_mem _ h1, h2⟩,
    fun k g => (h.cookie k g).imp_right fun ⟨d, h1, h2⟩ => ⟨d, List.mem_cons_of_mem _ h1, h2⟩⟩

theorem clientExtensions_spec (l : List (Nat × Bytes)) (x : S13.ChExts) (s : Ses SSt) :
    wp (S13.clientExtensions env l x) s (fun y s' => s' = s ∧ From env l x y) (fun _ s' => s' = s) := by
  induction l generalizing x with
  | nil => exact ⟨rfl, fun h => .inl h, fun _ h => .inl h, fun _ h => .inl h, fun _ h => .inl h⟩
  | cons e rest ih =>
    obtain ⟨t, d⟩ := e
    unfold S13.clientExtensions
    simp only [bind_eq]
    split
    · next ht =>
      subst ht
      rw [wp_bind]
      refine wp_orTransient_of (fun vs hv => ?_) rfl
      refine wp_mono (ih _) (fun y s' ⟨h1, h2⟩ => ⟨h1, ?_⟩) (fun _ _ h => h)
      have h3 := h2.cons (43, d)
      refine ⟨fun g => ?_, h3.shares, h3.srtp, h3.cookie⟩
      rcases h3.version g with g | g
      · rcases Bool.or_eq_true_iff.mp g with g | g
        · exact .inl g
        · exact .inr ⟨d, vs, List.mem_cons_self, hv, by simpa using g⟩
      · exact .inr g
    split
    · next ht =>
      subst ht
      rw [wp_bind]
      refine wp_orTransient_of (fun ks hv => ?_) rfl
      split
      · rfl
      refine wp_mono (ih _) (fun y s' ⟨h1, h2⟩ => ⟨h1, ?_⟩) (fun _ _ h => h)
      have h3 := h2.cons (51, d)
      refine ⟨h3.version, fun k g => ?_, h3.srtp, h3.cookie⟩
      rcases h3.shares k g with g | g
      · cases g; exact .inr ⟨d, List.mem_cons_self, hv⟩
      · exact .inr g
    split
    · rw [wp_bind]
      refine wp_orTransient_of (fun gs hv => ?_) rfl
      refine wp_mono (ih _) (fun y s' ⟨h1, h2⟩ => ⟨h1, ?_⟩) (fun _ _ h => h)
      have h3 := h2.cons (t, d)
      exact ⟨h3.version, h3.shares, h3.srtp, h3.cookie⟩
    split
    · next ht =>
      subst ht
      rw [wp_bind]
      refine wp_orTransient_of (fun ps hv => ?_) rfl
      refine wp_mono (ih _) (fun y s' ⟨h1, h2⟩ => ⟨h1, ?_⟩) (fun _ _ h => h)
      have h3 := h2.cons (14, d)
      refine ⟨h3.version, h3.shares, fun k g => ?_, h3.cookie⟩
      rcases h3.srtp k g with g | g
      · cases g; exact .inr ⟨d, List.mem_cons_self, hv⟩
      · exact .inr g
    split
    · next ht =>
      subst ht
      rw [wp_bind]
      refine wp_orTransient_of (fun c hv => ?_) rfl
      rw [wp_bind]
      refine wp_check_of (fun _ => ?_) rfl
      refine wp_mono (ih _) (fun y s' ⟨h1, h2⟩ => ⟨h1, ?_⟩) (fun _ _ h => h)
      have h3 := h2.cons (44, d)
      refine ⟨h3.version, h3.shares, h3.srtp, fun k g => ?_⟩
      rcases h3.cookie k g with g | g
      · cases g; exact .inr ⟨d, List.mem_cons_self, hv⟩
      · exact .inr g
    · exact wp_mono (ih _) (fun y s' ⟨h1, h2⟩ => ⟨h1, h2.cons _⟩) (fun _ _ h => h)

/-- What an accepted ClientHello leaves. -/
structure Accepted (env : PEnv) (suite : Nat) (x : S13.ChExts) (share : Nat × Bytes) (s s' : Ses SSt) : Prop where
  st : s'.st = s.st
  peerCerts : s'.peerCerts = s.peerCerts
  told : s'.events.count .connected = s.events.count .connected
  release : s'.eng.release = s.eng.release
  suite : s'.eng.suite = some suite
  log : ∃ es, s'.eng.log = es ++ s.eng.log
  transcript : ∃ t, s'.eng.transcript = s.eng.transcript ++ t
  srtp : s'.srtp = (match S13.selectSrtp (x.srtp.getD []) with
      | some p => some p
      | none => s.srtp)
  kx : ∃ n ours secret, env.kxStart n share.1 = some ours ∧ env.kxComplete n share.1 share.2 = some secret ∧
    s'.shared = some secret ∧ s'.extData = S13.packShare share.1 ours

/-- Failures while waiting for the ClientHello. -/
def Failed (s : Ses SSt) (f : Fault) (s' : Ses SSt) : Prop :=
  s'.st = s.st ∧ (Early (fun _ => True) s s' ∨
    (gone f ∧ s'.events.count .connected = s.events.count .connected))

theorem acceptClientHello_ok (suite : Nat) (x : S13.ChExts) (share : Nat × Bytes) (s : Ses SSt) :
    wp (S13.acceptClientHello env suite x share) s
      (fun new s' => new = .sendServerHello ∧ Accepted env suite x share s s') (Failed s) := by
  have hf := Early.rel (St := SSt) (K := fun _ => True)
  unfold S13.acceptClientHello
  simp only [bind_eq, pure_eq, wp_bind]
  refine wp_check_of (fun hg => ?_) ⟨rfl, .inl (hf.refl s)⟩
  rw [wp_drawTick]
  have q1 : Early (fun _ => True) s { s with eng := { s.eng with tick := s.eng.tick + 1 } } :=
    hf.eng s _ (.same rfl rfl rfl rfl)
  refine wp_orFatal_of (fun ours h1 => ?_) ⟨rfl, .inl q1⟩
  rw [wp_modify]
  refine wp_orFatal_of (fun secret h2 => ?_) ⟨rfl, .inl (hf.trans _ _ _ q1 (.mod rfl rfl rfl rfl rfl rfl))⟩
  rw [wp_modify, wp_setSuite, wp_onEng]
  refine wp_mono (advancePeerSeq_ok _) ?_ (fun f e h => ⟨rfl, .inr ⟨h, rfl⟩⟩)
  intro _ e k
  exact ⟨rfl, rfl, rfl, rfl, k.release, k.suite, k.log, k.transcript, rfl, _, ours, secret, h1, h2, rfl, rfl⟩

theorem sendRetry_early (suite : Nat) (cookie : Bytes) (group : Option Nat) :
    SFr (Early fun _ => True) (S13.sendRetry env suite cookie group) := by
  have hf := Early.rel (St := SSt) (K := fun _ => True)
  unfold S13.sendRetry
  simp only [bind_eq, pure_eq]
  early hf

theorem sendRetry_ok (suite : Nat) (cookie : Bytes) (group : Option Nat) (s : Ses SSt) :
    wp (S13.sendRetry env suite cookie group) s
      (fun new s' => new = .awaitClientHello ∧ s'.st = s.st ∧ Early (fun _ => True) s s') (Failed s) := by
  refine wp_of ?_ ?_
  · intro new s' he
    obtain ⟨h1, h2⟩ := sendRetry_early (env := env) suite cookie group s
    rw [he] at h1 h2
    refine ⟨?_, h2, h1⟩
    have : Gives (· = SSt.awaitClientHello) (S13.sendRetry env suite cookie group) := by
      unfold S13.sendRetry; simp only [bind_eq, pure_eq]; gives
    exact this s new (by rw [he])
  · intro f s' he
    obtain ⟨h1, h2⟩ := sendRetry_early (env := env) suite cookie group s
    rw [he] at h1 h2
    exact ⟨h2, .inl h1⟩

/-- The server waits on, or has accepted the ClientHello. -/
def Chosen (env : PEnv) (suite : Nat) (x : S13.ChExts) (s : Ses SSt) (new : SSt) (s' : Ses SSt) : Prop :=
  (new = .awaitClientHello ∧ s'.st = s.st ∧ Early (fun _ => True) s s') ∨
  (new = .sendServerHello ∧ ∃ share, S13.selectShare env (x.shares.getD []) = some share ∧
    Accepted env suite x share s s')

theorem chooseShare_ok (suite : Nat) (random : Bytes) (x : S13.ChExts) (s : Ses SSt) :
    wp (S13.chooseShare env suite random x) s (Chosen env suite x s) (Failed s) := by
  have hf := Early.rel (St := SSt) (K := fun _ => True)
  have q : ∀ f, Failed s f s := fun _ => ⟨rfl, .inl (hf.refl s)⟩
  unfold S13.chooseShare
  simp only [bind_eq]
  split
  · next share hs =>
    exact wp_mono (acceptClientHello_ok suite x share s) (fun _ _ h => .inr ⟨h.1, share, hs, h.2⟩) (fun _ _ h => h)
  · split
    · rw [wp_bind, wp_get, wp_bind]
      refine wp_check_of (fun _ => ?_) (q _)
      rw [wp_bind]
      refine wp_orPanic_of (fun c _ => ?_) (q _)
      exact wp_mono (sendRetry_ok _ _ _ s) (fun _ _ h => .inl h) (fun _ _ h => h)
    · exact q _

theorem checkCookie_ok (len suite : Nat) (random : Bytes) (x : S13.ChExts) (s : Ses SSt) :
    wp (S13.checkCookie env len suite random x) s
      (fun new s' => Chosen env suite x s new s' ∧ (new = .sendServerHello → env.useCookie = true →
        ∃ c, x.cookie = some c ∧ env.hmac env.cookieSecret random = some c)) (Failed s) := by
  have hf := Early.rel (St := SSt) (K := fun _ => True)
  have q : ∀ f, Failed s f s := fun _ => ⟨rfl, .inl (hf.refl s)⟩
  unfold S13.checkCookie
  simp only [bind_eq, pure_eq]
  split
  · next c hc =>
    rw [wp_bind]
    refine wp_orPanic_of (fun expected he => ?_) (q _)
    rw [wp_bind]
    refine wp_check_of (fun h1 => ?_) (q _)
    refine wp_mono (chooseShare_ok suite random x s) (fun _ _ h => ⟨h, fun _ _ => ⟨c, hc, ?_⟩⟩) (fun _ _ h => h)
    rw [he, eq_of_beq h1]
  · split
    · rw [wp_bind]
      refine wp_orPanic_of (fun expected he => ?_) (q _)
      rw [wp_bind, wp_get]
      split
      · rw [wp_bind, wp_onEng']
        exact ⟨.inl ⟨rfl, rfl, rfl, rfl, rfl, rfl, rfl, fun _ h => .inl h⟩, fun h => nomatch h⟩
      · refine wp_mono (sendRetry_ok _ _ _ s) (fun new _ h => ⟨.inl h, fun g => ?_⟩) (fun _ _ h => h)
        rw [h.1] at g; cases g
    · next hc =>
      exact wp_mono (chooseShare_ok suite random x s) (fun _ _ h => ⟨h, fun _ g => absurd g hc⟩) (fun _ _ h => h)

theorem clientHello_ok (len : Nat) (ch : ClientHello) (s : Ses SSt) (hs : s.srtp = none) :
    wp (S13.clientHello env len ch) s
      (fun new s' => (new = .awaitClientHello ∧ s'.st = s.st ∧ Early (fun _ => True) s s') ∨
        (new = .sendServerHello ∧ ∃ cs x share, Accepted env cs x share s s' ∧ ch.version = 0xFEFD ∧
          FirstOf (· ∈ env.allowed) ch.suites cs ∧
          (∃ d vs, (43, d) ∈ ch.exts ∧ env.parseClientVersions d = some vs ∧ 0xFEFC ∈ vs) ∧
          (env.useCookie = true → ∃ d c, (44, d) ∈ ch.exts ∧ env.parseCookie d = some c ∧
            env.hmac env.cookieSecret ch.random = some c) ∧
          (∀ p, s'.srtp = some p → ∃ d ps, (14, d) ∈ ch.exts ∧ env.parseUseSrtp d = some ps ∧
            FirstOf (· ∈ [8, 7, 1]) ps p) ∧
          ∃ d ks, (51, d) ∈ ch.exts ∧ env.parseClientShares d = some ks ∧
            FirstOf (fun k => k.1 ∈ env.groups) ks share)) (Failed s) := by
  have hf := Early.rel (St := SSt) (K := fun _ => True)
  have q : ∀ f, Failed s f s := fun _ => ⟨rfl, .inl (hf.refl s)⟩
  unfold S13.clientHello
  simp only [bind_eq, wp_bind]
  refine wp_check_of (fun _ => ?_) (q _)
  refine wp_check_of (fun h1 => ?_) (q _)
  refine wp_check_of (fun _ => ?_) (q _)
  refine wp_mono (clientExtensions_spec ch.exts _ s) ?_ (fun f s' h => h ▸ q f)
  intro x s1 ⟨e1, hx⟩
  subst e1
  rw [wp_get]
  refine wp_check_of (fun h2 => ?_) (q _)
  refine wp_orFatal_of (fun suite h3 => ?_) (q _)
  rw [wp_modify]
  have e1 : Early (fun _ => True) s1 { s1 with sessionId := some ch.sessionId } := .mod rfl rfl rfl rfl rfl rfl
  refine wp_mono (checkCookie_ok len suite ch.random x _) ?_ ?_
  · rintro new s' ⟨h4 | ⟨h4, share, h5, h6⟩, h7⟩
    · exact .inl ⟨h4.1, h4.2.1, hf.trans _ _ _ e1 h4.2.2⟩
    · have h6 : Accepted env suite x share s1 s' :=
        ⟨h6.st, h6.peerCerts, h6.told, h6.release, h6.suite, h6.log, h6.transcript, h6.srtp, h6.kx⟩
      refine .inr ⟨h4, suite, x, share, h6, by simpa using h1, ?_, ?_, ?_, ?_, ?_⟩
      · exact (find_first h3).imp fun y => by simp
      · exact (hx.version h2).elim (fun h => nomatch h) id
      · intro hu
        obtain ⟨c, g1, g2⟩ := h7 h4 hu
        obtain ⟨d, g3, g4⟩ := (hx.cookie c g1).elim (fun h => nomatch h) id
        exact ⟨d, c, g3, g4, g2⟩
      · intro p hp
        rw [h6.srtp] at hp
        split at hp
        · next z hz =>
          cases hp
          cases hps : x.srtp with
          | none => rw [hps] at hz; cases hz
          | some ps =>
            obtain ⟨d, g1, g2⟩ := (hx.srtp ps hps).elim (fun h => nomatch h) id
            refine ⟨d, ps, g1, g2, ?_⟩
            rw [hps] at hz
            exact (find_first hz).imp fun y => by simp
        · rw [hs] at hp; cases hp
      · cases hks : x.shares with
        | none => rw [hks] at h5; cases h5
        | some ks =>
          obtain ⟨d, g1, g2⟩ := (hx.shares ks hks).elim (fun h => nomatch h) id
          refine ⟨d, ks, g1, g2, ?_⟩
          rw [hks] at h5
          exact (find_first h5).imp fun y => by simp
  · intro f s' ⟨h1, h2⟩
    exact ⟨h1, h2.imp_left (hf.trans _ _ _ e1)⟩

theorem awaitClientHello_step (s : Ses SSt) (hst : s.st = .awaitClientHello) (hs : Stage env s.st s)
    (hr : s.eng.release = false) : wp (S13.awaitClientHello env) s (Good env s) (Quiet env s) := by
  have hf := Early.rel (St := SSt) (K := fun _ => True)
  rw [hst] at hs
  have quiet : ∀ f s', Failed s f s' → Quiet env s f s' := by
    rintro f s' ⟨h1, h2 | h2⟩
    · refine ⟨h1, .inl ⟨?_, h2.release.trans hr, h2.told⟩⟩
      rw [hst]; exact ⟨h2.peerCerts.trans hs.1, h2.srtp.trans hs.2⟩
    · exact ⟨h1, .inr (.inl h2)⟩
  unfold S13.awaitClientHello
  simp only [bind_eq, pure_eq, wp_bind, wp_get]
  rw [wp_onEng]
  refine wp_mono (nextHandshakeWith_ok env.toEnv _ mtClientHello s.eng (by decide)) ?_
    (fun f e h => quiet f _ ⟨rfl, .inl (hf.eng s e h.1)⟩)
  intro m e ⟨hg, hm⟩
  have h1 := hf.eng s e hg
  rcases hm with ⟨rfl, rfl⟩ | ⟨bd, seq, body, rfl, hl, hp, ht⟩
  · exact ⟨rfl, hs, .inr ⟨hr, rfl⟩⟩
  · obtain ⟨ch, rfl, hx⟩ := parseBody_clientHello hp
    refine wp_mono (clientHello_ok s.eng.transcript.length ch _ hs.2) ?_ ?_
    · rintro new s' (⟨rfl, h2, h3⟩ | ⟨rfl, cs, x, share, h2, h3, h4, h5, h6, h7, h8⟩)
      · have h4 := hf.trans _ _ _ h1 h3
        exact ⟨h2, ⟨h4.peerCerts.trans hs.1, h4.srtp.trans hs.2⟩, .inr ⟨h4.release.trans hr, h4.told⟩⟩
      · refine ⟨h2.st, ⟨h2.peerCerts.trans hs.1, fun z hz => ?_⟩,
          .inr ⟨h2.release.trans (hg.release.trans hr), h2.told⟩⟩
        obtain ⟨es, k1⟩ := h2.log
        obtain ⟨t, k2⟩ := h2.transcript
        obtain ⟨n, ours, secret, k3, k4, k5, k6⟩ := h2.kx
        obtain ⟨d, ks, g1, g2, g3⟩ := h8
        rw [k5] at hz
        cases hz
        refine ⟨share.1, ours, ⟨_, body, ch, cs, s.eng.transcript, ⟨seq, ?_⟩, ⟨t, ?_⟩, hx, h3, h2.suite, h4, h5, h6, h7,
          d, ks, n, share.2, g1, g2, g3, k3, k4⟩, fun _ => .inl k6⟩
        · rw [k1, show ({ s with eng := e } : Ses SSt).eng.log = _ from hl]
          exact List.mem_append_right _ List.mem_cons_self
        · rw [k2, show ({ s with eng := e } : Ses SSt).eng.transcript = _ from ht]; rfl
    · rintro f s' ⟨h2, h3⟩
      exact quiet f s' ⟨h2, h3.imp_left (hf.trans _ _ _ h1)⟩

/-! ### The other steps -/

/-- Steps that only pass on what is known. -/
theorem pass {m : P SSt SSt} {s : Ses SSt} {l : List SSt} (hm : SFr Later m) (hg : Gives (· ∈ l) m)
    (hr : s.eng.release = false) (hs : Stage env s.st s)
    (hl : ∀ x ∈ l, Stage env s.st s → Stage env x s) : wp m s (Good env s) (Quiet env s) := by
  refine wp_of ?_ ?_
  · intro new s' he
    obtain ⟨h1, h2⟩ := hm s
    rw [he] at h1 h2
    exact good_later (hl new (hg s new (by rw [he])) hs) hr h1 h2
  · intro f s' he
    obtain ⟨h1, h2⟩ := hm s
    rw [he] at h1 h2
    exact quiet_later hs hr h1 h2 f

/-- Keeps the shared secret. -/
theorem kept_rel : SRel (fun s s' : Ses SSt => s'.shared = s.shared) where
  refl _ := rfl
  trans _ _ _ h g := g.trans h
  eng _ _ _ := rfl

theorem installHandshake_kept (x : Bytes) :
    SFr (fun s s' : Ses SSt => s'.shared = s.shared) (installHandshake env x : P SSt Unit) := by
  have hf := kept_rel
  unfold installHandshake; simp only [bind_eq]; sfr hf
  exact .modify (fun _ => rfl) fun _ => rfl

theorem sendServerHello_step (s : Ses SSt) (hst : s.st = .sendServerHello) (hs : Stage env s.st s)
    (hr : s.eng.release = false) : wp (S13.sendServerHello env) s (Good env s) (Quiet env s) := by
  have hf := Later.rel (St := SSt)
  have quiet := fun s' h h2 => quiet_later (env := env) (s := s) (s' := s') hs hr h h2
  have hs0 := hs
  rw [hst] at hs
  unfold S13.sendServerHello
  simp only [bind_eq, pure_eq, wp_bind, wp_get]
  refine wp_orPanic_of (fun random _ => ?_) (quiet s (hf.refl s) rfl _)
  split
  · exact quiet s (hf.refl s) rfl _
  simp only [wp_bind]
  rw [wp_modify, wp_onEng']
  have q1 : Near s { s with
      extData := s.extData.take (s.extData.length - 10), eng := flightBegin env.toEnv s.eng } :=
    (Near.rel (St := SSt)).trans _ _ _ ((Near.rel (St := SSt)).eng s _ (flightBegin_grow env.toEnv s.eng))
      (.mod rfl rfl rfl rfl rfl rfl rfl rfl)
  refine wp_orPanic_of (fun suite h1 => ?_) ⟨rfl, .inr (.inl ⟨trivial, rfl⟩)⟩
  split
  · exact ⟨rfl, .inr (.inl ⟨trivial, rfl⟩)⟩
  simp only [wp_bind]
  generalize hg : ofBe (List.take 2 _) = group
  generalize hp : List.drop _ (List.take _ (List.take _ _)) = pub
  have share : ∀ g o, Small g o → s.extData = S13.packShare g o → group = g ∧ pub = o := by
    rintro g o ⟨hg1, ho1⟩ hx
    have e1 : (List.take 4 (List.drop 2 (beBytes 2 g ++ beBytes 4 0 ++ beBytes 4 o.length))) = beBytes 4 0 := by
      rw [List.append_assoc, List.drop_left' (beBytes_length 2 g), List.take_left' (beBytes_length 4 0)]
    have e2 : (List.take 4 (List.drop 6 (beBytes 2 g ++ beBytes 4 0 ++ beBytes 4 o.length))) = beBytes 4 o.length := by
      rw [List.drop_left' (by simp [beBytes_length]), List.take_of_length_le (by simp [beBytes_length])]
    rw [hx, S13.packShare_drop] at hg hp
    rw [S13.packShare_take, e1, e2, ofBe_beBytes_of_lt (v := 0) (by decide), ofBe_beBytes_of_lt (v := o.length) ho1,
      List.take_length, List.drop_zero] at hp
    rw [List.append_assoc, List.take_left' (beBytes_length 2 g), ofBe_beBytes_of_lt hg1] at hg
    exact ⟨hg.symm, hp.symm⟩
  rw [wp_onEng]
  refine wp_mono (to_wp (R := fun e => Grow { flightBegin env.toEnv s.eng with
      transcript := (flightBegin env.toEnv s.eng).transcript ++ transcriptOf mtServerHello _ _ } e)
    (createHandshake_tr env.toEnv mtServerHello _ (flightBegin env.toEnv s.eng))) ?_ ?_
  rotate_left
  · intro f e k
    have q2 : Near s { s with extData := s.extData.take (s.extData.length - 10), eng := e } :=
      (Near.rel (St := SSt)).trans _ _ _ q1 ((Near.rel (St := SSt)).eng _ e (.after k ⟨rfl, rfl, ⟨[], rfl⟩, ⟨_, rfl⟩⟩))
    refine ⟨rfl, .inl ⟨?_, q2.grow.release.trans hr, rfl⟩⟩
    refine at_stage hst ⟨hs.1, fun x hx => ?_⟩
    obtain ⟨g, o, k1, k2⟩ := hs.2 x hx
    refine ⟨g, o, here (Q := fun s f => HelloOk env s x g o f) q2 k1 (fun _ h => h.near q2 rfl)
      (fun _ y h => h.append y), fun hsm => .inr ?_⟩
    rcases k2 hsm with k2 | k2
    · obtain ⟨rfl, rfl⟩ := share g o hsm k2
      obtain ⟨t1, k1⟩ := k.transcript
      exact ⟨random, suite, (flightBegin env.toEnv s.eng).transcript,
        k.suite.trans ((flightBegin_grow env.toEnv s.eng).suite.trans h1), t1, k1⟩
    · exact here (Q := fun s f => Answered env s g o f) q2 k2 (fun _ h => h.near q2) (fun _ y h => h.append y)
  intro _ e k
  have q2 : Near s { s with extData := s.extData.take (s.extData.length - 10), eng := e } :=
    (Near.rel (St := SSt)).trans _ _ _ q1 ((Near.rel (St := SSt)).eng _ e (.after k ⟨rfl, rfl, ⟨[], rfl⟩, ⟨_, rfl⟩⟩))
  cases h2 : s.shared with
  | none =>
    refine wp_orFatal_of (fun _ h3 => nomatch h3) ⟨rfl, .inl ⟨?_, q2.grow.release.trans hr, rfl⟩⟩
    exact at_stage hst ⟨hs.1, fun x hx => nomatch hx⟩
  | some shared =>
  simp only [orFatal, wp_pure]
  rw [wp_modify]
  obtain ⟨g0, o0, hh, ha⟩ := hs.2 shared h2
  refine wp_mono (wp_and ((installHandshake_early (K := fun _ => True) shared).wp _)
    (wp_and ((installHandshake_kept shared).wp _) (installHandshake_ok shared _))) ?_ ?_
  · rintro _ s' ⟨⟨e1, e2⟩, -, suite', c, sv, hsec, e', g1, g2, g3, rfl⟩
    refine ⟨rfl, ⟨hs.1, ?_⟩, .inr ⟨g3.release.trans (q2.grow.release.trans hr), rfl⟩⟩
    have hsu : e.suite = some suite := k.suite.trans ((flightBegin_grow env.toEnv s.eng).suite.trans h1)
    have : suite' = suite := by
      have g1 : e.suite = some suite' := g1
      rw [hsu] at g1; exact (Option.some.inj g1).symm
    subst this
    obtain ⟨t1, k1⟩ := k.transcript
    obtain ⟨t2, k2⟩ := g3.transcript
    obtain ⟨t0, k0⟩ := (flightBegin_grow env.toEnv s.eng).transcript
    have q3 : Near s { s with extData := s.extData.take (s.extData.length - 10), eng := e' } :=
      (Near.rel (St := SSt)).trans _ _ _ q2 ((Near.rel (St := SSt)).eng _ e' g3)
    refine ⟨shared, suite', e.transcript, s.eng.transcript ++ t0, random, group, pub, t2, g0, o0, k2, g3.suite.trans hsu,
      ?_, ⟨t1, ?_⟩, ⟨c, sv, hsec, g2, rfl, rfl, rfl⟩, fun hsm => ?_⟩
    · have l1 := (hh.near q3 rfl).append t0
      obtain ⟨a, b, ch, cs, pre, h1, h2, h3, h4, h5, h6, h7, h8, h9, h10⟩ := l1
      exact ⟨a, b, ch, cs, pre, h1, h2, h3, h4, h5, h6, h7, h8, h9, h10⟩
    · rw [k1, k0]; rfl
    · refine (ha hsm).imp (share g0 o0 hsm) fun h => ?_
      obtain ⟨r, cs, pre, h1, h2⟩ := (h.near q3).append t0
      exact ⟨r, cs, pre, h1, h2⟩
  · rintro f s' ⟨⟨e1, e2⟩, ⟨e3, -⟩, -⟩
    refine ⟨e2, .inl ⟨?_, e1.release.trans (q2.grow.release.trans hr), e1.told⟩⟩
    rw [hst]
    refine ⟨e1.peerCerts.trans hs.1, fun x hx => ?_⟩
    rw [e3] at hx; cases hx

theorem sendEncryptedExtensions_later : SFr Later (S13.sendEncryptedExtensions env) := by
  have hf := (Later.rel (St := SSt)).toSRel
  unfold S13.sendEncryptedExtensions; simp only [bind_eq, pure_eq]; sfr hf

theorem sendEncryptedExtensions_step (s : Ses SSt) (hst : s.st = .sendEncryptedExtensions) (hs : Stage env s.st s)
    (hr : s.eng.release = false) : wp (S13.sendEncryptedExtensions env) s (Good env s) (Quiet env s) := by
  have hg : Gives (fun x => x = SSt.sendCertificateRequest ∨
      (x = SSt.sendCertificate ∧ env.requireClientCert ≠ true)) (S13.sendEncryptedExtensions env) := by
    unfold S13.sendEncryptedExtensions
    simp only [bind_eq, pure_eq]
    refine .bind fun _ => .bind fun _ => .pure ?_
    split
    · exact .inl rfl
    · next h => exact .inr ⟨rfl, h⟩
  refine wp_of ?_ ?_
  · intro new s' he
    obtain ⟨h1, h2⟩ := sendEncryptedExtensions_later (env := env) s
    rw [he] at h1 h2
    rw [hst] at hs
    rcases hg s new (by rw [he]) with rfl | ⟨rfl, h3⟩
    · exact good_later (new := .sendCertificateRequest) hs hr h1 h2
    · exact good_later (new := .sendCertificate) ⟨hs.1, hs.2, fun h => absurd h h3⟩ hr h1 h2
  · intro f s' he
    obtain ⟨h1, h2⟩ := sendEncryptedExtensions_later (env := env) s
    rw [he] at h1 h2
    exact quiet_later hs hr h1 h2 f

theorem sendCertificateRequest_step (s : Ses SSt) (hst : s.st = .sendCertificateRequest) (hs : Stage env s.st s)
    (hr : s.eng.release = false) : wp (S13.sendCertificateRequest env) s (Good env s) (Quiet env s) := by
  have hf := Later.rel (St := SSt)
  unfold S13.sendCertificateRequest
  simp only [bind_eq, pure_eq, wp_bind]
  refine wp_mono ((SFr.onEng hf.toSRel (createHandshake_grow env.toEnv _ _)).wp s) ?_
    (fun f s' h => quiet_later hs hr h.1 h.2 f)
  intro _ s1 ⟨h1, h2⟩
  rw [hst] at hs
  have h3 := hello_later h1 hs.2
  refine ⟨h2, ⟨h1.peerCerts.trans hs.1, ?_, fun _ => rfl⟩, .inr ⟨h1.grow.release.trans hr, h1.told⟩⟩
  obtain ⟨sh, cs, pre, pre0, a, b, c, d, k1, k2, k3, k4, k5⟩ := h3
  exact ⟨sh, cs, pre, pre0, a, b, c, d, k1, k2, k3, k4, k5⟩

theorem sendCertificate_later : SFr Later (S13.sendCertificate env) := by
  have hf := (Later.rel (St := SSt)).toSRel
  unfold S13.sendCertificate; simp only [bind_eq, pure_eq]; sfr hf

theorem sendCertificateVerify_later : SFr Later (S13.sendCertificateVerify env) := by
  have hf := (Later.rel (St := SSt)).toSRel
  have h1 := certificateVerifyBody_sfr (env := env) hf serverLabel
  unfold S13.sendCertificateVerify; simp only [bind_eq, pure_eq]; sfr hf

theorem sendFinished_later : SFr Later (S13.sendFinished env) := by
  have hf := (Later.rel (St := SSt)).toSRel
  have h1 := fun x => computeVerify_sfr (env := env) hf x
  have h2 := installApplication_sfr (env := env) hf
  unfold S13.sendFinished; simp only [bind_eq, pure_eq]; sfr hf
  exact h1 _

theorem sendFinished_gives (s : Ses SSt) : wp (S13.sendFinished env) s
    (fun new _ => (s.authRequested = true ∧ new = .awaitCertificate) ∨
      (s.authRequested ≠ true ∧ new = .awaitFinished)) (fun _ _ => True) := by
  unfold S13.sendFinished
  simp only [bind_eq, pure_eq]
  rw [wp_bind, wp_get]
  have hg : Gives (fun x => (s.authRequested = true ∧ x = SSt.awaitCertificate) ∨
      (s.authRequested ≠ true ∧ x = SSt.awaitFinished)) (M.bind (orFatal s.serverHs .invalidState : P SSt Bytes) fun secret =>
        M.bind (computeVerify env secret) fun v => M.bind (onEng (createHandshake env.toEnv mtFinished v)) fun _ =>
        M.bind (installApplication env) fun _ => M.bind (onEng (enablePeerEncryption env.toEnv)) fun _ =>
        M.pure (if s.authRequested then SSt.awaitCertificate else .awaitFinished)) := by
    refine .bind fun _ => .bind fun _ => .bind fun _ => .bind fun _ => .bind fun _ => .pure ?_
    split
    · next h => exact .inl ⟨h, rfl⟩
    · next h => exact .inr ⟨h, rfl⟩
  exact wp_of (fun new s' he => hg s new (by rw [he])) (fun _ _ _ => trivial)

theorem sendFinished_step (s : Ses SSt) (hst : s.st = .sendFinished) (hs : Stage env s.st s)
    (hr : s.eng.release = false) : wp (S13.sendFinished env) s (Good env s) (Quiet env s) := by
  refine wp_mono (wp_and ((sendFinished_later (env := env)).wp s) (sendFinished_gives (env := env) s)) ?_
    (fun f s' h => quiet_later hs hr h.1.1 h.1.2 f)
  rintro new s' ⟨⟨h1, h2⟩, h3⟩
  rw [hst] at hs
  rcases h3 with ⟨h3, rfl⟩ | ⟨h3, rfl⟩
  · exact good_later (new := .awaitCertificate) ⟨hs.1, hs.2.1⟩ hr h1 h2
  · exact good_later (new := .awaitFinished) ⟨.inl ⟨hs.1, fun h => absurd (hs.2.2 h) h3⟩, hs.2.1⟩ hr h1 h2

theorem awaitCertificate_step (s : Ses SSt) (hst : s.st = .awaitCertificate) (hs : Stage env s.st s)
    (hr : s.eng.release = false) : wp (S13.awaitCertificate env) s (Good env s) (Quiet env s) := by
  have hf := Later.rel (St := SSt)
  have hs0 := hs
  rw [hst] at hs
  unfold S13.awaitCertificate
  simp only [bind_eq, pure_eq, wp_bind]
  rw [wp_onEng]
  refine wp_mono (nextHandshake_ok env.toEnv mtCertificate s.eng (by decide)) ?_
    (fun f e h => quiet_later hs0 hr (hf.eng s e h.1) rfl f)
  intro m e ⟨hg, hm⟩
  rcases hm with ⟨rfl, rfl⟩ | ⟨bd, seq, body, rfl, hl, hp, ht⟩
  · exact good_later (new := .awaitCertificate) hs hr (hf.refl s) rfl
  · obtain ⟨⟨ctx, certs⟩, rfl, hx⟩ := parseBody_certificate hp
    have hin : ∀ e2, Grow e e2 → ∃ seq, .taken seq mtCertificate body ∈ e2.log := by
      intro e2 k
      obtain ⟨es, k⟩ := k.log
      rw [k, hl]
      exact ⟨seq, List.mem_append_right _ List.mem_cons_self⟩
    cases certs with
    | nil =>
      simp only [wp_bind]
      rw [wp_onEng]
      refine wp_mono (advancePeerSeq_ok e) ?_ (fun f e' h => ⟨rfl, .inr (.inl ⟨h, rfl⟩)⟩)
      intro _ e2 k
      rw [wp_onEng']
      have k2 := hf.eng s _ (hg.trans (k.trans (flightStop_grow e2)))
      refine ⟨rfl, ⟨.inl ⟨hs.1, fun _ => ⟨body, ctx, hin _ (k.trans (flightStop_grow e2)), hx⟩⟩,
        hello_later k2 hs.2⟩, .inr ⟨k2.grow.release.trans hr, rfl⟩⟩
    | cons c rest =>
      simp only [wp_bind]
      rw [wp_modify, wp_onEng', wp_onEng]
      have hcount : (s.events ++ [E12.Event.peerCert]).count E12.Event.connected = s.events.count .connected := by
        rw [List.count_append]; rfl
      refine wp_mono (advancePeerSeq_ok _) ?_ (fun f e' h => ⟨rfl, .inr (.inl ⟨h, hcount⟩)⟩)
      intro _ e2 k
      have k := (flightStop_grow e).trans k
      have k2 := hf.eng s _ (hg.trans k)
      refine ⟨rfl, ⟨⟨body, ctx, c :: rest, hin _ k, hx, nofun, ?_⟩, ?_⟩, .inr ⟨k2.grow.release.trans hr, hcount⟩⟩
      · show s.peerCerts ++ _ = _
        rw [hs.1]; rfl
      · obtain ⟨sh, cs, pre, pre0, a, b, c, d, k1, k2, k3, k4, k5⟩ := hello_later k2 hs.2
        exact ⟨sh, cs, pre, pre0, a, b, c, d, k1, k2, k3, k4, k5⟩

theorem awaitCertificateVerify_step (s : Ses SSt) (hst : s.st = .awaitCertificateVerify)
    (hs : Stage env s.st s) (hr : s.eng.release = false) :
    wp (awaitCertificateVerify env clientLabel .awaitCertificateVerify .awaitFinished) s
      (Good env s) (Quiet env s) := by
  refine wp_mono (awaitCertificateVerify_ok _ _ _ s) ?_ (fun f s' h => quiet_later hs hr h.1 h.2 f)
  intro new s' ⟨h1, h2, h3⟩
  have h4 : Stage env .awaitCertificateVerify s' := (hst ▸ hs).later h1
  refine ⟨h2, ?_, .inr ⟨h1.grow.release.trans hr, h1.told⟩⟩
  rcases h3 with rfl | ⟨rfl, h3⟩
  · exact h4
  · exact ⟨.inr ⟨h4.1, by rw [contexts.2]; exact h3⟩, h4.2⟩

theorem awaitFinished_step (s : Ses SSt) (hst : s.st = .awaitFinished) (hs : Stage env s.st s)
    (hr : s.eng.release = false) : wp (S13.awaitFinished env) s (Good env s) (Quiet env s) := by
  have hf := Later.rel (St := SSt)
  have quiet := fun s' h h2 => quiet_later (env := env) (s := s) (s' := s') hs hr h h2
  unfold S13.awaitFinished
  simp only [bind_eq, pure_eq, wp_bind, wp_get]
  refine wp_orFatal_of (fun secret h1 => ?_) (quiet s (hf.refl s) rfl _)
  refine wp_mono (computeVerify_ok secret s) ?_ (fun f s' h => h ▸ quiet s (hf.refl s) rfl f)
  intro v s1 ⟨e1, suite, h2, h3⟩
  subst e1
  rw [wp_onEng]
  refine wp_mono (nextHandshake_ok env.toEnv mtFinished s1.eng (by decide)) ?_
    (fun f e h => quiet _ (hf.eng s1 e h.1) rfl f)
  intro m e ⟨hg, hm⟩
  have hn := hf.eng s1 e hg
  rcases hm with ⟨rfl, rfl⟩ | ⟨bd, seq, body, rfl, hl, hp, ht⟩
  · rw [hst] at hs
    exact good_later (new := .awaitFinished) hs hr (hf.refl s1) rfl
  · obtain ⟨cs, x, hcs, rfl, hx⟩ := parseBody_finished hp
    simp only [wp_bind]
    refine wp_check_of (fun h4 => ?_) (quiet _ hn rfl _)
    rw [wp_onEng]
    refine wp_mono (advancePeerSeq_ok e) ?_ (fun f e' h => ⟨rfl, .inr (.inl ⟨h, rfl⟩)⟩)
    intro _ e2 k
    have hn2 := hf.eng s1 e2 (hg.trans k)
    refine wp_mono ((SFr.onEng hf.toSRel (sendAckRetransmittable_grow env.toEnv)).wp _) ?_
      (fun f s' h => quiet s' (hf.trans _ _ _ hn2 h.1) h.2 f)
    intro _ s2 ⟨h5, h6⟩
    refine wp_mono ((SFr.onEng' hf.toSRel flightStop_grow).wp _) ?_
      (fun f s' h => quiet s' (hf.trans _ _ _ hn2 (hf.trans _ _ _ h5 h.1)) (h.2.trans h6) f)
    intro _ s3 ⟨h7, h8⟩
    have k3 : Later { s1 with eng := e } s3 :=
      hf.trans _ _ _ (hf.eng { s1 with eng := e } e2 k) (hf.trans _ _ _ h5 h7)
    have hn3 := hf.trans _ _ _ hn2 (hf.trans _ _ _ h5 h7)
    have hst3 : s3.st = s1.st := h8.trans h6
    have hd : Done env s3 := by
      rw [hst] at hs
      obtain ⟨c1, c2⟩ := hs
      refine ⟨s1.eng.transcript, ?_, c2.later hn3, c1.near hn3.toNear⟩
      have hfin : FinOk env s1.clientHs { s1 with eng := e } s1.eng.transcript := by
        refine ⟨body, cs, secret, x, ⟨seq, ?_⟩, ⟨[], ?_⟩, hg.suite.trans hcs, h1, hx, ?_⟩
        · rw [hl]; exact List.mem_cons_self
        · rw [List.append_nil]; exact ht
        · rw [h2] at hcs; cases hcs
          rw [h3]; exact congrArg some (eq_of_beq h4).symm
      rw [hn3.clientHs]
      exact hfin.near k3.toNear
    obtain ⟨pre, d1, d2, d3⟩ := hd
    obtain ⟨sh, cs, pre1, pre0, a, b, c, d, gr, o, m1, m2, m3, m4, m5, m6⟩ := d2
    refine wp_mono (announceConnected_ok _ _ s3) ?_ ?_
    · rintro new s4 ⟨rfl, es, h9, rfl⟩
      refine ⟨hst3, ?_, .inl ⟨rfl, rfl, ?_⟩⟩
      · exact ⟨pre, d1, ⟨sh, cs, pre1, pre0, a, b, c, d, gr, o, m1, m2, m3, m4, m5, m6⟩, d3⟩
      · rw [← hn3.told, ← h9]; exact List.count_append
    · rintro f s4 ⟨rfl, rfl⟩
      refine ⟨hst3, .inr (.inr ⟨trivial, ?_, ?_⟩)⟩
      · rw [← hn3.told]; exact List.count_append
      · exact ⟨pre, d1, ⟨sh, cs, pre1, pre0, a, b, c, d, gr, o, m1, m2, m3, m4, m5, m6⟩, d3⟩

theorem saga (env : PEnv) : Saga S13.role env Later (Stage env) (Done env) where
  rel := Later.rel
  stage _ _ _ h hn := Stage.later h hn
  done _ _ h hn := h.later hn
  shown st s l h := by
    cases st
    case closed => trivial
    case sendCertificate => exact ⟨h.1, h.2.1, h.2.2⟩
    case sendCertificateVerify => exact ⟨h.1, h.2.1, h.2.2⟩
    case sendFinished => exact ⟨h.1, h.2.1, h.2.2⟩
    case awaitApplicationData => exact ⟨h.1⟩
    case halfClosedLocal => exact ⟨h.1⟩
    all_goals exact ⟨h.1, h.2⟩
  doneShown s l h := ⟨h.1⟩
  appDone _ h := h
  closed _ _ _ := trivial
  half _ h := h
  halfDone _ h := h
  step s h1 h2 h3 hs hr := by
    show wp (S13.step env s.st) s (Good env s) (Quiet env s)
    rcases hst : s.st
    case awaitClientHello => exact awaitClientHello_step s hst hs hr
    case sendServerHello => exact sendServerHello_step s hst hs hr
    case sendEncryptedExtensions => exact sendEncryptedExtensions_step s hst hs hr
    case sendCertificateRequest => exact sendCertificateRequest_step s hst hs hr
    case sendCertificate =>
      exact pass (l := [.sendCertificateVerify]) sendCertificate_later (S13.step_succ env .sendCertificate) hr hs
        (by rw [hst]; intro x hx h; rw [List.mem_singleton] at hx; subst hx; exact h)
    case sendCertificateVerify =>
      exact pass (l := [.sendFinished]) sendCertificateVerify_later (S13.step_succ env .sendCertificateVerify) hr hs
        (by rw [hst]; intro x hx h; rw [List.mem_singleton] at hx; subst hx; exact h)
    case sendFinished => exact sendFinished_step s hst hs hr
    case awaitCertificate => exact awaitCertificate_step s hst hs hr
    case awaitCertificateVerify => exact awaitCertificateVerify_step s hst hs hr
    case awaitFinished => exact awaitFinished_step s hst hs hr
    case awaitApplicationData => exact absurd hst h1
    case halfClosedLocal => exact absurd hst h2
    case closed => exact absurd hst h3

end Server

theorem serverTale (env : PEnv) (cfg : Cfg) (now : Nat) (auto : Bool) :
    Tale S13.role (Server.Stage env) (Server.Done env) [] (S13.start env cfg now auto) := by
  have ho : InOrder [] := by
    intro pre d post e
    cases pre <;> cases e
  exact ⟨⟨rfl, rfl⟩, rfl, (fun h => nomatch h), (fun h => nomatch h), ho⟩

/-- **C41, server.** Connected is queued at most once (counting those already output), and when it has
been, the server has received a ClientHello it can accept (with the right cookie, if cookies are on) and a
Finished whose verify_data is right for a transcript that contains the ClientHello and the ServerHello.
Certificates of the client, if it sent any, come with a CertificateVerify whose signature over the
transcript verified. -/
theorem server_connected (env : PEnv) (cfg : Cfg) (now : Nat) (auto : Bool) (cs : List Call) :
    let r := run S13.role env (S13.start env cfg now auto) cs
    (outputs r.1).count .connected + r.2.events.count .connected ≤ 1 ∧
    (0 < (outputs r.1).count .connected + r.2.events.count .connected → Server.Done env r.2) := by
  have h := (((Server.saga env).story (S13.tail env)).run [] cs _ (serverTale env cfg now auto)).1
  rw [List.nil_append] at h
  exact ⟨h.told, h.done⟩

/-- **C44, server.** Past the ServerHello, the suite in use is the first of the client's that is configured
and is named in the ServerHello, the SRTP profile is the first of the client's that is supported, and the
key share used is the client's first in a group that is configured. -/
theorem server_negotiated (env : PEnv) (cfg : Cfg) (now : Nat) (auto : Bool) (cs : List Call) :
    let r := run S13.role env (S13.start env cfg now auto) cs
    (∀ x ∈ r.1, ¬ Stops x) → r.2.st ∉ [SSt.awaitClientHello, .sendServerHello, .closed] →
    ∃ full, ClientHelloOk env r.2 full := by
  intro r hr hst
  have h : Server.Stage env r.2.st r.2 :=
    ((((Server.saga env).story (S13.tail env)).run [] cs _ (serverTale env cfg now auto)).2 hr).stage
  revert h hst
  generalize r.2.st = st
  intro hst h
  cases st
  case awaitClientHello => exact absurd (by decide) hst
  case sendServerHello => exact absurd (by decide) hst
  case closed => exact absurd (by decide) hst
  case sendCertificate => exact ⟨_, h.2.1⟩
  case sendCertificateVerify => exact ⟨_, h.2.1⟩
  case sendFinished => exact ⟨_, h.2.1⟩
  case awaitApplicationData => obtain ⟨pre, _, h, _⟩ := h; exact ⟨pre, h⟩
  case halfClosedLocal => obtain ⟨pre, _, h, _⟩ := h; exact ⟨pre, h⟩
  all_goals exact ⟨_, h.2⟩

/-- **C17, server.** Application data is output only after Connected. -/
theorem server_no_early_data (env : PEnv) (cfg : Cfg) (now : Nat) (auto : Bool) (cs : List Call) :
    ∀ pre d post, outputs (run S13.role env (S13.start env cfg now auto) cs).1 =
      pre ++ .eng (.appData d) :: post → .connected ∈ pre := by
  have h := (((Server.saga env).story (S13.tail env)).run [] cs _ (serverTale env cfg now auto)).1
  rw [List.nil_append] at h
  exact h.ordered

end Verif.Props.Shake13

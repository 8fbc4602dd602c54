import Verif.Lemmas.Saga13
import Verif.Props.Demo13
/-!
# What a DTLS 1.3 session checked before it reports Connected (C17, C41, C44)

The conditions are stated over the messages taken from the peer (`Ev.taken` in the log), the transcript,
the configuration and the cryptographic parameters.
-/
namespace Verif.Props.Shake13
open Verif Wire Window Timer Aead M E13
open Verif.E12 (Call Output outputs)

/-- The session took a handshake message of type `t` with this body from the peer. -/
def Got {St : Type} (s : Ses St) (t : UInt8) (body : Bytes) : Prop := ∃ seq, .taken seq t body ∈ s.eng.log

/-- A message as it enters the transcript (RFC 8446, 4.4.1: type, length, body). -/
def asSent (t : UInt8) (body : Bytes) : Bytes := t :: (beBytes 3 body.length ++ body)

/-- The message stands in the transcript `full` right after `pre`. -/
def At (full pre : Bytes) (t : UInt8) (body : Bytes) : Prop := ∃ post, full = pre ++ asSent t body ++ post

/-- The traffic secrets come from this shared secret and the transcript up to and including the
ServerHello. -/
def SecretsFrom {St : Type} (env : PEnv) (s : Ses St) (suite : Nat) (shared pre : Bytes) : Prop :=
  ∃ c sv hs, env.deriveHs suite shared pre = some (c, sv, hs) ∧ s.clientHs = some c ∧ s.serverHs = some sv ∧
    s.hsSecret = some hs

/-- The contexts of RFC 8446, 4.4.3: "TLS 1.3, server CertificateVerify" and a zero byte. -/
def serverContext : Bytes :=
  [84, 76, 83, 32, 49, 46, 51, 44, 32, 115, 101, 114, 118, 101, 114, 32, 67, 101, 114, 116, 105, 102, 105, 99,
   97, 116, 101, 86, 101, 114, 105, 102, 121, 0]
/-- "TLS 1.3, client CertificateVerify" and a zero byte. -/
def clientContext : Bytes :=
  [84, 76, 83, 32, 49, 46, 51, 44, 32, 99, 108, 105, 101, 110, 116, 32, 67, 101, 114, 116, 105, 102, 105, 99,
   97, 116, 101, 86, 101, 114, 105, 102, 121, 0]

/-- A CertificateVerify arrived whose signature over the transcript before it verified under the first of
the peer's certificates, with a scheme of the two supported that fits the certificate. `full` is the transcript it is looked for in. -/
def CvOk {St : Type} (env : PEnv) (context : Bytes) (s : Ses St) (full : Bytes) : Prop :=
  ∃ body pre scheme sig suite cert, Got s mtCertificateVerify body ∧ At full pre mtCertificateVerify body ∧
    env.parseCertificateVerify body = some ([], (scheme, sig)) ∧ scheme ∈ [0x0403, 0x0503] ∧
    s.eng.suite = some suite ∧ s.peerCerts.head? = some cert ∧ env.schemeError cert scheme = none ∧
    env.verifySig cert (List.replicate 64 0x20 ++ context ++ env.hash suite pre) scheme sig = true

/-- The peer's Finished arrived after `pre` and its verify_data is the one for `pre` under `secret`. -/
def FinOk {St : Type} (env : PEnv) (secret : Option Bytes) (s : Ses St) (pre : Bytes) : Prop :=
  ∃ body suite x v, Got s mtFinished body ∧ At s.eng.transcript pre mtFinished body ∧
    s.eng.suite = some suite ∧ secret = some x ∧ env.parseFinished suite body = some ([], v) ∧
    env.verifyData suite x pre = some v

/-- The peer's certificates are those of a Certificate message and there is one at least. -/
def CertIn {St : Type} (env : PEnv) (s : Ses St) : Prop :=
  ∃ body ctx certs, Got s mtCertificate body ∧ env.parseCertificate body = some ([], (ctx, certs)) ∧
    certs ≠ [] ∧ s.peerCerts = certs

/-! ## Client -/

/-- A key exchange (tick, group) that is ours: in a group configured, or the one of the hybrid
ClientHello. -/
def Ours (env : PEnv) (hybrid : Option (Nat × Nat)) (x : Nat × Nat) : Prop :=
  hybrid = some x ∨ (x.2 ∈ env.groups ∧ ∃ pub, env.kxStart x.1 x.2 = some pub)

/-- A ServerHello (no HelloRetryRequest) arrived. It selects DTLS 1.3, the suite in use, which is one of
those configured, and a share in the group of our key exchange, and the traffic secrets are derived from
that share. `full` is the transcript it is looked for in. -/
def ServerHelloOk {St : Type} (env : PEnv) (hybrid : Option (Nat × Nat)) (s : Ses St) (full : Bytes) : Prop :=
  ∃ body h exts n group pub shared pre,
    Got s mtServerHello body ∧ At full pre mtServerHello body ∧
    env.parseServerHello body = some ([], h) ∧ h.random ≠ hrrRandom ∧ h.version = 0xFEFD ∧
    s.eng.suite = some h.suite ∧ h.suite ∈ env.allowed ∧ h.exts = some exts ∧
    (∃ d, (43, d) ∈ exts ∧ env.parseServerVersion d = some 0xFEFC) ∧
    (∃ d, (51, d) ∈ exts ∧ env.parseServerShare d = some (group, pub)) ∧
    Ours env hybrid (n, group) ∧ env.kxComplete n group pub = some shared ∧
    SecretsFrom env s h.suite shared (pre ++ asSent mtServerHello body)

section mono
variable {St : Type} {env : PEnv} {s s' : Ses St}

theorem Got.near {t : UInt8} {body : Bytes} (h : Got s t body) (hn : Near s s') : Got s' t body := by
  obtain ⟨q, h⟩ := h
  obtain ⟨es, he⟩ := hn.grow.log
  exact ⟨q, by rw [he]; exact List.mem_append_right _ h⟩

theorem At.append {full pre : Bytes} {t : UInt8} {body : Bytes} (h : At full pre t body) (x : Bytes) :
    At (full ++ x) pre t body := by
  obtain ⟨p, h⟩ := h
  exact ⟨p ++ x, by rw [h, List.append_assoc]⟩

theorem At.near {pre : Bytes} {t : UInt8} {body : Bytes} (h : At s.eng.transcript pre t body) (hn : Near s s') :
    At s'.eng.transcript pre t body := by
  obtain ⟨x, hx⟩ := hn.grow.transcript
  rw [hx]; exact h.append x

theorem CvOk.near {c full : Bytes} (h : CvOk env c s full) (hn : Near s s') : CvOk env c s' full := by
  obtain ⟨body, pre, a, b, d, e, h1, h2, h3, h4, h5, h6, h7⟩ := h
  exact ⟨body, pre, a, b, d, e, h1.near hn, h2, h3, h4, hn.grow.suite.trans h5,
    by rw [hn.peerCerts]; exact h6, h7⟩

theorem CvOk.append {c full : Bytes} (h : CvOk env c s full) (x : Bytes) : CvOk env c s (full ++ x) := by
  obtain ⟨body, pre, a, b, d, e, h1, h2, h3⟩ := h
  exact ⟨body, pre, a, b, d, e, h1, h2.append x, h3⟩

theorem FinOk.near {o : Option Bytes} {pre : Bytes} (h : FinOk env o s pre) (hn : Near s s') :
    FinOk env o s' pre := by
  obtain ⟨body, a, b, c, h1, h2, h3, h4⟩ := h
  exact ⟨body, a, b, c, h1.near hn, h2.near hn, hn.grow.suite.trans h3, h4⟩

theorem CertIn.near (h : CertIn env s) (hn : Near s s') : CertIn env s' := by
  obtain ⟨b, c, d, h1, h2, h3, h4⟩ := h
  exact ⟨b, c, d, h1.near hn, h2, h3, hn.peerCerts.trans h4⟩

theorem SecretsFrom.near {x : Nat} {y z : Bytes} (h : SecretsFrom env s x y z) (hn : Near s s') :
    SecretsFrom env s' x y z := by
  obtain ⟨c, sv, hs, h1, h2, h3, h4⟩ := h
  exact ⟨c, sv, hs, h1, hn.clientHs.trans h2, hn.serverHs.trans h3, hn.hsSecret.trans h4⟩

theorem ServerHelloOk.near {hyb : Option (Nat × Nat)} {full : Bytes} (h : ServerHelloOk env hyb s full)
    (hn : Near s s') : ServerHelloOk env hyb s' full := by
  obtain ⟨b, x, e, n, g, p, sh, pre, h1, h2, h3, h4, h5, h6, h7, h8, h9, h10, h11, h12, h13⟩ := h
  exact ⟨b, x, e, n, g, p, sh, pre, h1.near hn, h2, h3, h4, h5, hn.grow.suite.trans h6, h7, h8, h9, h10, h11, h12,
    h13.near hn⟩

theorem ServerHelloOk.append {hyb : Option (Nat × Nat)} {full : Bytes} (h : ServerHelloOk env hyb s full)
    (x : Bytes) : ServerHelloOk env hyb s (full ++ x) := by
  obtain ⟨b, y, e, n, g, p, sh, pre, h1, h2, h3⟩ := h
  exact ⟨b, y, e, n, g, p, sh, pre, h1, h2.append x, h3⟩

/-- Statements about the transcript of the session itself. -/
theorem here {Q : Ses St → Bytes → Prop} (hn : Near s s') (h : Q s s.eng.transcript)
    (h1 : ∀ f, Q s f → Q s' f) (h2 : ∀ f x, Q s' f → Q s' (f ++ x)) : Q s' s'.eng.transcript := by
  obtain ⟨x, hx⟩ := hn.grow.transcript
  rw [hx]; exact h2 _ x (h1 _ h)

end mono

/-- The two contexts are those of the code. -/
theorem contexts : serverContext = serverLabel ∧ clientContext = clientLabel := by decide

/-- Waiting for CertificateVerify, both roles. -/
theorem awaitCertificateVerify_ok {St : Type} {env : PEnv} (label : Bytes) (a b : St) (s : Ses St) :
    wp (awaitCertificateVerify env label a b) s
    (fun new s' => Later s s' ∧ s'.st = s.st ∧ (new = a ∨ (new = b ∧ CvOk env label s' s'.eng.transcript)))
    (fun _ s' => Later s s' ∧ s'.st = s.st) := by
  unfold awaitCertificateVerify
  have hr := Later.rel (St := St)
  simp only [bind_eq, pure_eq, wp_bind, wp_get]
  refine wp_orPanic_of (fun suite hsu => ?_) ⟨hr.refl s, rfl⟩
  rw [wp_onEng]
  refine wp_mono (nextHandshake_ok env.toEnv mtCertificateVerify s.eng (by decide)) ?_
    (fun _ e h => ⟨hr.eng s e h.1, rfl⟩)
  intro m e ⟨hg, hm⟩
  have hn := hr.eng s e hg
  rcases hm with ⟨rfl, rfl⟩ | ⟨bd, seq, body, rfl, hl, hp, ht⟩
  · exact ⟨hn, rfl, .inl rfl⟩
  · obtain ⟨x, rfl, hx⟩ := parseBody_certificateVerify hp
    simp only [wp_bind]
    refine wp_check_of (fun h1 => ?_) ⟨hn, rfl⟩
    refine wp_check_of (fun _ => ?_) ⟨hn, rfl⟩
    refine wp_orFatal_of (fun cert hc => ?_) ⟨hn, rfl⟩
    split
    · exact ⟨hn, rfl⟩
    · rename_i hse
      simp only [wp_bind]
      refine wp_check_of (fun h2 => ?_) ⟨hn, rfl⟩
      refine wp_mono ((SFr.onEng hr.toSRel advancePeerSeq_grow).wp _) ?_ ?_
      · intro _ s' ⟨h3, h4⟩
        refine ⟨hr.trans _ _ _ hn h3, h4, .inr ⟨rfl, ?_⟩⟩
        refine here (Q := CvOk env label) h3.toNear ?_ (fun _ h => h.near h3.toNear) (fun _ x h => h.append x)
        refine ⟨body, s.eng.transcript, x.1, x.2, suite, cert, ⟨seq, ?_⟩, ⟨[], ?_⟩, hx, ?_, ?_, hc, hse, h2⟩
        · rw [hl]; exact List.mem_cons_self
        · rw [List.append_nil]; exact ht
        · simpa [supportedSchemes] using h1
        · exact hg.suite.trans hsu
      · intro _ s' ⟨h3, h4⟩
        exact ⟨hr.trans _ _ _ hn h3, h4⟩

namespace Client
variable {env : PEnv} {hyb : Option (Nat × Nat)}

/-- What a connected client has checked. The transcript the server's Finished covers has the ServerHello
and the CertificateVerify in it. -/
structure Done (env : PEnv) (hyb : Option (Nat × Nat)) (s : Ses CSt) : Prop where
  cert : CertIn env s
  fin : ∃ pre, FinOk env s.serverHs s pre ∧ ServerHelloOk env hyb s pre ∧ CvOk env serverContext s pre

theorem Done.near {s s' : Ses CSt} (h : Done env hyb s) (hn : Near s s') : Done env hyb s' := by
  obtain ⟨h1, pre, h2, h3, h4⟩ := h
  exact ⟨h1.near hn, pre, by rw [hn.serverHs]; exact h2.near hn, h3.near hn, h4.near hn⟩

/-- What each state knows. -/
def Stage (env : PEnv) (hyb : Option (Nat × Nat)) (st : CSt) (s : Ses CSt) : Prop :=
  match st with
  | .sendClientHello | .awaitServerHello => s.peerCerts = [] ∧ ∀ x, s.kx = some x → Ours env hyb x
  | .awaitEncryptedExtensions | .awaitCertificateRequest | .awaitCertificate =>
    s.peerCerts = [] ∧ ServerHelloOk env hyb s s.eng.transcript
  | .awaitCertificateVerify => CertIn env s ∧ ServerHelloOk env hyb s s.eng.transcript
  | .awaitFinished => CertIn env s ∧ ServerHelloOk env hyb s s.eng.transcript ∧
      CvOk env serverContext s s.eng.transcript
  | .sendCertificate | .sendCertificateVerify | .sendFinished | .awaitApplicationData | .halfClosedLocal =>
    Done env hyb s
  | .closed => True

theorem hello_near {s s' : Ses CSt} (hn : Near s s') (h : ServerHelloOk env hyb s s.eng.transcript) :
    ServerHelloOk env hyb s' s'.eng.transcript :=
  here (Q := ServerHelloOk env hyb) hn h (fun _ h => h.near hn) (fun _ x h => h.append x)

theorem cv_near {s s' : Ses CSt} {c : Bytes} (hn : Near s s') (h : CvOk env c s s.eng.transcript) :
    CvOk env c s' s'.eng.transcript :=
  here (Q := CvOk env c) hn h (fun _ h => h.near hn) (fun _ x h => h.append x)

theorem Stage.near {st : CSt} {s s' : Ses CSt} (h : Stage env hyb st s) (hn : Near s s') :
    Stage env hyb st s' := by
  cases st
  case sendClientHello => exact ⟨hn.peerCerts.trans h.1, by rw [hn.kx]; exact h.2⟩
  case awaitServerHello => exact ⟨hn.peerCerts.trans h.1, by rw [hn.kx]; exact h.2⟩
  case awaitEncryptedExtensions => exact ⟨hn.peerCerts.trans h.1, hello_near hn h.2⟩
  case awaitCertificateRequest => exact ⟨hn.peerCerts.trans h.1, hello_near hn h.2⟩
  case awaitCertificate => exact ⟨hn.peerCerts.trans h.1, hello_near hn h.2⟩
  case awaitCertificateVerify => exact ⟨h.1.near hn, hello_near hn h.2⟩
  case awaitFinished => exact ⟨h.1.near hn, hello_near hn h.2.1, cv_near hn h.2.2⟩
  case closed => trivial
  all_goals exact Done.near h hn

/-- What `Saga.step` asks for. -/
def StepOk (env : PEnv) (hyb : Option (Nat × Nat)) (m : P CSt CSt) (s : Ses CSt) : Prop :=
  wp m s
    (fun new s' => s'.st = s.st ∧ Stage env hyb new s' ∧
      ((new = .awaitApplicationData ∧ s'.eng.release = true ∧
          s'.events.count .connected = s.events.count .connected + 1) ∨
        (s'.eng.release = false ∧ s'.events.count .connected = s.events.count .connected)))
    (fun f s' => s'.st = s.st ∧
      ((Stage env hyb s.st s' ∧ s'.eng.release = false ∧
          s'.events.count .connected = s.events.count .connected) ∨
        (gone f ∧ s'.events.count .connected = s.events.count .connected) ∨
        (gone f ∧ s'.events.count .connected = s.events.count .connected + 1 ∧ Done env hyb s')))

/-- Steps that only pass on what is known. -/
theorem pass {m : P CSt CSt} {s : Ses CSt} {l : List CSt} (hm : SFr Near m) (hg : Gives (· ∈ l) m)
    (hr : s.eng.release = false) (hs : Stage env hyb s.st s)
    (hl : ∀ x ∈ l, Stage env hyb s.st s → Stage env hyb x s) : StepOk env hyb m s := by
  refine wp_of ?_ ?_
  · intro new s' he
    obtain ⟨h1, h2⟩ := hm s
    rw [he] at h1 h2
    exact ⟨h2, Stage.near (hl new (hg s new (by rw [he])) hs) h1, .inr ⟨h1.grow.release.trans hr, h1.told⟩⟩
  · intro f s' he
    obtain ⟨h1, h2⟩ := hm s
    rw [he] at h1 h2
    exact ⟨h2, .inl ⟨hs.near h1, h1.grow.release.trans hr, h1.told⟩⟩

theorem serverShare_mem (exts : List (Nat × Bytes)) {x : Nat × Bytes} (h : C13.serverShare env exts = some x) :
    ∃ d, (51, d) ∈ exts ∧ env.parseServerShare d = some x := by
  suffices ∀ acc, exts.foldl (fun acc (t, d) =>
      if t = 51 then (match env.parseServerShare d with | some x => some x | none => acc) else acc) acc = some x →
      acc = some x ∨ ∃ d, (51, d) ∈ exts ∧ env.parseServerShare d = some x by
    exact (this none h).elim (fun h => nomatch h) id
  clear h
  induction exts with
  | nil => intro acc h; exact .inl h
  | cons y rest ih =>
    obtain ⟨t, d⟩ := y
    intro acc h
    rw [List.foldl_cons] at h
    rcases ih _ h with h | ⟨d', h1, h2⟩
    · dsimp only at h
      split at h
      · next ht =>
        split at h
        · next z hz => exact .inr ⟨d, by rw [ht]; exact List.mem_cons_self, by rw [hz, h]⟩
        · exact .inl h
      · exact .inl h
    · exact .inr ⟨d', List.mem_cons_of_mem _ h1, h2⟩

/-- A ServerHello that is accepted. -/
theorem serverHello_ok (h : ServerHello) (s : Ses CSt) : wp (C13.serverHello env h) s
    (fun new s' => new = .awaitEncryptedExtensions ∧ ∃ exts n group pub shared,
      h.version = 0xFEFD ∧ s'.eng.suite = some h.suite ∧ h.suite ∈ env.allowed ∧ h.exts = some exts ∧
      (∃ d, (43, d) ∈ exts ∧ env.parseServerVersion d = some 0xFEFC) ∧
      (∃ d, (51, d) ∈ exts ∧ env.parseServerShare d = some (group, pub)) ∧
      s.kx = some (n, group) ∧ env.kxComplete n group pub = some shared ∧
      SecretsFrom env s' h.suite shared s.eng.transcript ∧
      (∃ es, s'.eng.log = es ++ s.eng.log) ∧ ∃ t, s'.eng.transcript = s.eng.transcript ++ t)
    (fun _ _ => True) := by
  unfold C13.serverHello
  simp only [bind_eq, pure_eq, wp_bind]
  refine wp_check_of (fun h1 => ?_) trivial
  refine wp_check_of (fun _ => ?_) trivial
  refine wp_check_of (fun _ => ?_) trivial
  refine wp_check_of (fun h2 => ?_) trivial
  rw [wp_setSuite, wp_modify]
  refine wp_orFatal_of (fun exts h3 => ?_) trivial
  refine wp_check_of (fun h4 => ?_) trivial
  refine wp_orFatal_of (fun share h5 => ?_) trivial
  rw [wp_get, wp_modify]
  refine wp_orFatal_of (fun kx h6 => ?_) trivial
  refine wp_check_of (fun h7 => ?_) trivial
  refine wp_orFatal_of (fun shared h8 => ?_) trivial
  refine wp_mono (installHandshake_ok shared _) ?_ (fun _ _ _ => trivial)
  intro _ s' ⟨suite, c, sv, hs, e, g1, g2, g3, g4⟩
  subst g4
  rw [wp_onEng]
  refine wp_mono (to_wp (R := fun e' => Grow e e') (enablePeerEncryption_grow env.toEnv e)) ?_ (fun _ _ _ => trivial)
  intro _ e1 k1
  rw [wp_onEng]
  refine wp_mono (advancePeerSeq_ok e1) ?_ (fun _ _ _ => trivial)
  intro _ e2 k2
  have k := g3.trans (k1.trans k2)
  have hsu : h.suite = suite := by simpa using g1
  obtain ⟨n, ours⟩ := kx
  obtain ⟨group, pub⟩ := share
  have ho : ours = group := by simpa using h7
  subst ho hsu
  refine ⟨rfl, exts, n, ours, pub, shared, by simpa using h1, k.suite, by simpa using h2, h3, ?_,
    serverShare_mem exts h5, h6, h8, ⟨c, sv, hs, g2, rfl, rfl, rfl⟩, k.log, k.transcript⟩
  unfold C13.serverVersionOk at h4
  obtain ⟨⟨t, d⟩, m1, m2⟩ := List.any_eq_true.mp h4
  simp only [Bool.and_eq_true, beq_iff_eq] at m2
  obtain ⟨rfl, m2⟩ := m2
  exact ⟨d, m1, m2⟩

theorem awaitServerHello_step (s : Ses CSt) (hst : s.st = .awaitServerHello) (hs : Stage env hyb s.st s)
    (hr : s.eng.release = false) : StepOk env hyb (C13.awaitServerHello env) s := by
  rw [hst] at hs
  unfold StepOk
  rw [hst]
  have h0 := (C13.awaitServerHello_early (env := env) (K := Ours env hyb)).wp s
  have h0 : wp (C13.awaitServerHello env) s
    (fun new s' => Early (Ours env hyb) s s' ∧ s'.st = s.st)
    (fun _ s' => Early (Ours env hyb) s s' ∧ s'.st = s.st) := h0
  have hstage : ∀ s', Early (Ours env hyb) s s' → s'.peerCerts = [] ∧ ∀ x, s'.kx = some x → Ours env hyb x :=
    fun s' h => ⟨h.peerCerts.trans hs.1, fun x hx => (h.kx x hx).elim (hs.2 x) id⟩
  have h1 : wp (C13.awaitServerHello env) s
    (fun new s' => new = .awaitServerHello ∨ new = .sendClientHello ∨
      (new = .awaitEncryptedExtensions ∧ ServerHelloOk env hyb s' s'.eng.transcript)) (fun _ _ => True) := by
    unfold C13.awaitServerHello
    simp only [bind_eq, pure_eq, wp_bind, wp_get]
    rw [wp_onEng]
    refine wp_mono (nextHandshake_ok env.toEnv mtServerHello s.eng (by decide)) ?_ (fun _ _ _ => trivial)
    intro m e ⟨hg, hm⟩
    rcases hm with ⟨rfl, rfl⟩ | ⟨bd, seq, body, rfl, hl, hp, ht⟩
    · exact .inl rfl
    · obtain ⟨h, rfl, hx⟩ := parseBody_serverHello hp
      dsimp only
      split
      · refine wp_of (fun new s' he => .inr (.inl ?_)) (fun _ _ _ => trivial)
        exact C13.helloRetry_gives _ _ _ _ (by rw [he])
      · next hne =>
        refine wp_mono (serverHello_ok h _) ?_ (fun _ _ _ => trivial)
        intro new s' ⟨e1, exts, n, group, pub, shared, g1, g2, g3, g4, g5, g6, g7, g8, g9, ⟨es, g10⟩, ⟨t, g11⟩⟩
        refine .inr (.inr ⟨e1, body, h, exts, n, group, pub, shared, s.eng.transcript, ⟨seq, ?_⟩, ⟨t, ?_⟩,
          hx, hne, g1, g2, g3, g4, g5, g6, hs.2 _ g7, g8, ?_⟩)
        · rw [g10]
          refine List.mem_append_right _ ?_
          rw [hl]; exact List.mem_cons_self
        · rw [g11, ht]; rfl
        · rw [ht] at g9; exact g9
  refine wp_mono (wp_and h0 h1) ?_ ?_
  · intro new s' ⟨⟨e1, e2⟩, e3⟩
    refine ⟨e2.trans hst, ?_, .inr ⟨e1.release.trans hr, e1.told⟩⟩
    rcases e3 with rfl | rfl | ⟨rfl, e3⟩
    · exact hstage s' e1
    · exact hstage s' e1
    · exact ⟨(hstage s' e1).1, e3⟩
  · intro f s' ⟨⟨e1, e2⟩, _⟩
    exact ⟨e2.trans hst, .inl ⟨hstage s' e1, e1.release.trans hr, e1.told⟩⟩

theorem sendClientHello_step (s : Ses CSt) (hst : s.st = .sendClientHello) (hs : Stage env hyb s.st s)
    (hr : s.eng.release = false) : StepOk env hyb (C13.sendClientHello env) s := by
  rw [hst] at hs
  unfold StepOk
  rw [hst]
  have h0 := (C13.sendClientHello_early (env := env)).wp s
  have hstage : ∀ s', Early (fun x => x.2 ∈ env.groups ∧ ∃ pub, env.kxStart x.1 x.2 = some pub) s s' →
      s'.peerCerts = [] ∧ ∀ x, s'.kx = some x → Ours env hyb x :=
    fun s' h => ⟨h.peerCerts.trans hs.1, fun x hx => (h.kx x hx).elim (hs.2 x) .inr⟩
  refine wp_of ?_ ?_
  · intro new s' he
    obtain ⟨e1, e2⟩ := wp_ok h0 he
    have e3 := C13.step_succ env .sendClientHello s new (by rw [show C13.step env .sendClientHello s = _ from he])
    simp only [C13.succ, List.mem_singleton] at e3
    subst e3
    exact ⟨e2.trans hst, hstage s' e1, .inr ⟨e1.release.trans hr, e1.told⟩⟩
  · intro f s' he
    obtain ⟨e1, e2⟩ := wp_fail h0 he
    exact ⟨e2.trans hst, .inl ⟨hstage s' e1, e1.release.trans hr, e1.told⟩⟩

theorem encryptedExtensions_near (l : List (Nat × Bytes)) : SFr Near (C13.encryptedExtensions env l) := by
  have hf := (Near.rel (St := CSt)).toSRel
  induction l with
  | nil => exact .pure hf _
  | cons x rest ih =>
    obtain ⟨t, d⟩ := x
    unfold C13.encryptedExtensions
    simp only [bind_eq]
    sfr hf

/-- The steps that only pass on what is known. -/
theorem step_near (st : CSt) (h : st ∈ [CSt.awaitEncryptedExtensions, .awaitCertificateRequest, .sendCertificate,
    .sendCertificateVerify]) : SFr Near (C13.step env st) := by
  have hf := (Near.rel (St := CSt)).toSRel
  cases st <;> first | (exfalso; revert h; decide) | unfold C13.step
  case awaitEncryptedExtensions =>
    have h1 := nextHandshake_sfr (env := env) hf mtEncryptedExtensions
    unfold C13.awaitEncryptedExtensions; simp only [bind_eq, pure_eq]; sfr hf
    exact encryptedExtensions_near _
  case awaitCertificateRequest =>
    have h1 := nextHandshake_sfr (env := env) hf mtCertificateRequest
    unfold C13.awaitCertificateRequest; simp only [bind_eq, pure_eq]; sfr hf
  case sendCertificate => unfold C13.sendCertificate; simp only [bind_eq, pure_eq]; sfr hf
  case sendCertificateVerify =>
    have h1 := certificateVerifyBody_sfr (env := env) hf clientLabel
    unfold C13.sendCertificateVerify; simp only [bind_eq, pure_eq]; sfr hf

theorem awaitCertificate_step (s : Ses CSt) (hst : s.st = .awaitCertificate) (hs : Stage env hyb s.st s)
    (hr : s.eng.release = false) : StepOk env hyb (C13.awaitCertificate env) s := by
  have hf := Near.rel (St := CSt)
  have hs0 := hs
  rw [hst] at hs
  unfold StepOk C13.awaitCertificate
  simp only [bind_eq, pure_eq, wp_bind]
  rw [wp_onEng]
  have quiet : ∀ e, Grow s.eng e → Stage env hyb s.st { s with eng := e } ∧ e.release = false :=
    fun e hg => ⟨hs0.near (hf.eng s e hg), hg.release.trans hr⟩
  refine wp_mono (nextHandshake_ok env.toEnv mtCertificate s.eng (by decide)) ?_
    (fun _ e h => ⟨rfl, .inl ⟨(quiet e h.1).1, (quiet e h.1).2, rfl⟩⟩)
  intro m e ⟨hg, hm⟩
  obtain ⟨q1, q2⟩ := quiet e hg
  rcases hm with ⟨rfl, rfl⟩ | ⟨bd, seq, body, rfl, hl, hp, ht⟩
  · exact ⟨rfl, hst ▸ q1, .inr ⟨q2, rfl⟩⟩
  · obtain ⟨⟨ctx, certs⟩, rfl, hx⟩ := parseBody_certificate hp
    simp only [wp_bind]
    refine wp_check_of (fun h1 => ?_) ⟨rfl, .inl ⟨q1, q2, rfl⟩⟩
    refine wp_check_of (fun h2 => ?_) ⟨rfl, .inl ⟨q1, q2, rfl⟩⟩
    rw [wp_modify, wp_onEng]
    have hcount : (s.events ++ [E12.Event.peerCert]).count E12.Event.connected = s.events.count .connected := by
      rw [List.count_append]; rfl
    refine wp_mono (advancePeerSeq_ok e) ?_ (fun f e' h => ⟨rfl, .inr (.inl ⟨h, hcount⟩)⟩)
    intro _ e2 k
    refine ⟨rfl, ⟨⟨body, ctx, certs, ⟨seq, ?_⟩, hx, ?_, ?_⟩, ?_⟩, .inr ⟨k.release.trans q2, hcount⟩⟩
    · obtain ⟨es, k⟩ := k.log
      show _ ∈ e2.log
      rw [k, hl]
      exact List.mem_append_right _ List.mem_cons_self
    · intro h; subst h; cases h2
    · show s.peerCerts ++ certs = certs
      rw [hs.1]; rfl
    · -- nothing a ServerHello is about changed
      have h3 := (hello_near (hf.eng s _ (hg.trans k)) hs.2)
      obtain ⟨b, x, e, n, g, p, sh, pre, h1, h2, h3, h4, h5, h6, h7, h8, h9, h10, h11, h12, h13⟩ := h3
      exact ⟨b, x, e, n, g, p, sh, pre, h1, h2, h3, h4, h5, h6, h7, h8, h9, h10, h11, h12, h13⟩

theorem awaitCertificateVerify_step (s : Ses CSt) (hst : s.st = .awaitCertificateVerify)
    (hs : Stage env hyb s.st s) (hr : s.eng.release = false) :
    StepOk env hyb (awaitCertificateVerify env serverLabel .awaitCertificateVerify .awaitFinished) s := by
  refine wp_mono (awaitCertificateVerify_ok _ _ _ s) ?_ ?_
  · intro new s' ⟨h1, h2, h3⟩
    have h1 := h1.toNear
    have h4 : Stage env hyb .awaitCertificateVerify s' := (hst ▸ hs).near h1
    refine ⟨h2, ?_, .inr ⟨h1.grow.release.trans hr, h1.told⟩⟩
    rcases h3 with rfl | ⟨rfl, h3⟩
    · exact h4
    · exact ⟨h4.1, h4.2, by rw [contexts.1]; exact h3⟩
  · intro f s' ⟨h1, h2⟩
    have h1 := h1.toNear
    exact ⟨h2, .inl ⟨hs.near h1, h1.grow.release.trans hr, h1.told⟩⟩

theorem awaitFinished_step (s : Ses CSt) (hst : s.st = .awaitFinished) (hs : Stage env hyb s.st s)
    (hr : s.eng.release = false) : StepOk env hyb (C13.awaitFinished env) s := by
  have hf := Near.rel (St := CSt)
  unfold StepOk C13.awaitFinished
  simp only [bind_eq, pure_eq, wp_bind, wp_get]
  have quiet : ∀ s', Near s s' → s'.st = s.st → ∀ f, s'.st = s.st ∧
      ((Stage env hyb s.st s' ∧ s'.eng.release = false ∧
          s'.events.count .connected = s.events.count .connected) ∨
        (gone f ∧ s'.events.count .connected = s.events.count .connected) ∨
        (gone f ∧ s'.events.count .connected = s.events.count .connected + 1 ∧ Done env hyb s')) :=
    fun s' h h2 _ => ⟨h2, .inl ⟨hs.near h, h.grow.release.trans hr, h.told⟩⟩
  refine wp_orFatal_of (fun secret h1 => ?_) (quiet s (hf.refl s) rfl _)
  refine wp_mono (computeVerify_ok secret s) ?_ (fun f s' h => h ▸ quiet s (hf.refl s) rfl f)
  intro v s1 ⟨e1, suite, h2, h3⟩
  subst e1
  rw [wp_onEng]
  refine wp_mono (nextHandshake_ok env.toEnv mtFinished s1.eng (by decide)) ?_
    (fun f e h => quiet _ (hf.eng s1 e h.1) rfl f)
  intro m e ⟨hg, hm⟩
  have hn := hf.eng s1 e hg
  rcases hm with ⟨rfl, rfl⟩ | ⟨bd, seq, body, rfl, hl, hp, ht⟩
  · refine ⟨rfl, ?_, .inr ⟨hr, rfl⟩⟩
    rw [hst] at hs; exact hs
  · obtain ⟨cs, x, hcs, rfl, hx⟩ := parseBody_finished hp
    simp only [wp_bind]
    refine wp_check_of (fun h4 => ?_) (quiet _ hn rfl _)
    rw [wp_onEng]
    refine wp_mono (advancePeerSeq_ok e) ?_ (fun f e' h => ⟨rfl, .inr (.inl ⟨h, rfl⟩)⟩)
    intro _ e2 k
    have hn2 := hf.eng s1 e2 (hg.trans k)
    refine wp_mono ((installApplication_sfr hf.toSRel).wp _) ?_
      (fun f s' h => quiet s' (hf.trans _ _ _ hn2 h.1) h.2 f)
    intro _ s3 ⟨h5, h6⟩
    have hn3 := hf.trans _ _ _ hn2 h5
    have hd : Done env hyb s3 := by
      rw [hst] at hs
      obtain ⟨c1, c2, c3⟩ := hs
      refine ⟨c1.near hn3, s1.eng.transcript, ?_, c2.near hn3, c3.near hn3⟩
      have hfin : FinOk env s1.serverHs { s1 with eng := e } s1.eng.transcript := by
        refine ⟨body, cs, secret, x, ⟨seq, ?_⟩, ⟨[], ?_⟩, hg.suite.trans hcs, h1, hx, ?_⟩
        · rw [hl]; exact List.mem_cons_self
        · rw [List.append_nil]; exact ht
        · rw [h2] at hcs; cases hcs
          rw [h3]; exact congrArg some (eq_of_beq h4).symm
      rw [hn3.serverHs]
      have k2 : Near { s1 with eng := e } s3 := hf.trans _ _ _ (hf.eng { s1 with eng := e } e2 k) h5
      exact hfin.near k2
    refine ⟨h6, ?_, .inr ⟨hn3.grow.release.trans hr, hn3.told⟩⟩
    split
    · exact hd
    · exact hd

theorem sendFinished_step (s : Ses CSt) (hst : s.st = .sendFinished) (hs : Stage env hyb s.st s)
    (hr : s.eng.release = false) : StepOk env hyb (C13.sendFinished env) s := by
  have hf := (Near.rel (St := CSt)).toSRel
  have quiet : ∀ s', Near s s' → s'.st = s.st → ∀ f, s'.st = s.st ∧
      ((Stage env hyb s.st s' ∧ s'.eng.release = false ∧
          s'.events.count .connected = s.events.count .connected) ∨
        (gone f ∧ s'.events.count .connected = s.events.count .connected) ∨
        (gone f ∧ s'.events.count .connected = s.events.count .connected + 1 ∧ Done env hyb s')) :=
    fun s' h h2 _ => ⟨h2, .inl ⟨hs.near h, h.grow.release.trans hr, h.told⟩⟩
  have fin : ∀ s1, Near s s1 → s1.st = s.st →
      wp (announceConnected env releaseAppData .awaitApplicationData) s1
        (fun new s' => s'.st = s.st ∧ Stage env hyb new s' ∧
          ((new = .awaitApplicationData ∧ s'.eng.release = true ∧
              s'.events.count .connected = s.events.count .connected + 1) ∨
            (s'.eng.release = false ∧ s'.events.count .connected = s.events.count .connected)))
        (fun f s' => s'.st = s.st ∧
          ((Stage env hyb s.st s' ∧ s'.eng.release = false ∧
              s'.events.count .connected = s.events.count .connected) ∨
            (gone f ∧ s'.events.count .connected = s.events.count .connected) ∨
            (gone f ∧ s'.events.count .connected = s.events.count .connected + 1 ∧ Done env hyb s'))) := by
    intro s1 h1 h2
    have hd : Done env hyb s1 := (show Done env hyb s by rw [hst] at hs; exact hs).near h1
    refine wp_mono (announceConnected_ok _ _ s1) ?_ ?_
    · rintro new s2 ⟨rfl, es, h3, rfl⟩
      refine ⟨h2, ?_, .inl ⟨rfl, rfl, ?_⟩⟩
      · obtain ⟨c1, pre, c2, c3, c4⟩ := hd
        exact ⟨c1, pre, c2, c3, c4⟩
      · rw [← h1.told, ← h3]; exact List.count_append
    · rintro f s2 ⟨rfl, rfl⟩
      refine ⟨h2, .inr (.inr ⟨trivial, ?_, ?_⟩)⟩
      · rw [← h1.told]; exact List.count_append
      · obtain ⟨c1, pre, c2, c3, c4⟩ := hd
        exact ⟨c1, pre, c2, c3, c4⟩
  have walk : ∀ s1, Near s s1 → s1.st = s.st → wp (M.bind (orFatal s.clientHs .invalidState) fun secret =>
      M.bind (computeVerify env secret) fun v =>
      M.bind (onEng (createHandshake env.toEnv mtFinished v)) fun _ =>
      announceConnected env releaseAppData .awaitApplicationData) s1
        (fun new s' => s'.st = s.st ∧ Stage env hyb new s' ∧
          ((new = .awaitApplicationData ∧ s'.eng.release = true ∧
              s'.events.count .connected = s.events.count .connected + 1) ∨
            (s'.eng.release = false ∧ s'.events.count .connected = s.events.count .connected)))
        (fun f s' => s'.st = s.st ∧
          ((Stage env hyb s.st s' ∧ s'.eng.release = false ∧
              s'.events.count .connected = s.events.count .connected) ∨
            (gone f ∧ s'.events.count .connected = s.events.count .connected) ∨
            (gone f ∧ s'.events.count .connected = s.events.count .connected + 1 ∧ Done env hyb s'))) := by
    intro s1 h1 h2
    simp only [wp_bind]
    refine wp_orFatal_of (fun secret _ => ?_) (quiet s1 h1 h2 _)
    refine wp_mono ((computeVerify_sfr hf secret).wp s1) ?_
      (fun f s' h => quiet s' (hf.trans _ _ _ h1 h.1) (h.2.trans h2) f)
    intro v s2 ⟨h3, h4⟩
    refine wp_mono ((SFr.onEng hf (createHandshake_grow env.toEnv mtFinished v)).wp s2) ?_
      (fun f s' h => quiet s' (hf.trans _ _ _ h1 (hf.trans _ _ _ h3 h.1)) (h.2.trans (h4.trans h2)) f)
    intro _ s3 ⟨h5, h6⟩
    exact fin s3 (hf.trans _ _ _ h1 (hf.trans _ _ _ h3 h5)) (h6.trans (h4.trans h2))
  unfold StepOk C13.sendFinished
  simp only [bind_eq]
  rw [wp_bind, wp_get]
  split
  · exact walk s (hf.refl s) rfl
  · rw [wp_bind, wp_onEng']
    exact walk _ (hf.eng s _ (flightBegin_grow env.toEnv s.eng)) rfl

theorem saga (env : PEnv) (hyb : Option (Nat × Nat)) :
    Saga C13.role env Near (Stage env hyb) (Done env hyb) where
  rel := Near.rel
  stage _ _ _ h hn := Stage.near h hn
  done _ _ h hn := h.near hn
  shown st s l h := by
    cases st
    case awaitFinished => exact ⟨h.1, h.2.1, h.2.2⟩
    case closed => trivial
    case sendCertificate => exact ⟨h.1, h.2⟩
    case sendCertificateVerify => exact ⟨h.1, h.2⟩
    case sendFinished => exact ⟨h.1, h.2⟩
    case awaitApplicationData => exact ⟨h.1, h.2⟩
    case halfClosedLocal => exact ⟨h.1, h.2⟩
    all_goals exact ⟨h.1, h.2⟩
  doneShown s l h := ⟨h.1, h.2⟩
  appDone _ h := h
  closed _ _ _ := trivial
  half _ h := h
  halfDone _ h := h
  step s h1 h2 h3 hs hr := by
    show StepOk env hyb (C13.step env s.st) s
    rcases hst : s.st
    case sendClientHello => exact sendClientHello_step s hst hs hr
    case awaitServerHello => exact awaitServerHello_step s hst hs hr
    case awaitEncryptedExtensions =>
      exact pass (step_near _ (by decide)) (C13.step_succ env _) hr hs
        (by rw [hst]; intro x hx h; simp only [C13.succ, List.mem_cons, List.not_mem_nil, or_false] at hx
            rcases hx with rfl | rfl <;> exact h)
    case awaitCertificateRequest =>
      exact pass (step_near _ (by decide)) (C13.step_succ env _) hr hs
        (by rw [hst]; intro x hx h; simp only [C13.succ, List.mem_cons, List.not_mem_nil, or_false] at hx
            rcases hx with rfl | rfl <;> exact h)
    case awaitCertificate => exact awaitCertificate_step s hst hs hr
    case awaitCertificateVerify => exact awaitCertificateVerify_step s hst hs hr
    case awaitFinished => exact awaitFinished_step s hst hs hr
    case sendCertificate =>
      exact pass (step_near _ (by decide)) (C13.step_succ env _) hr hs
        (by rw [hst]; intro x hx h; simp only [C13.succ, List.mem_cons, List.not_mem_nil, or_false] at hx
            rcases hx with rfl | rfl <;> exact h)
    case sendCertificateVerify =>
      exact pass (step_near _ (by decide)) (C13.step_succ env _) hr hs
        (by rw [hst]; intro x hx h; simp only [C13.succ, List.mem_cons, List.not_mem_nil, or_false] at hx
            subst hx; exact h)
    case sendFinished => exact sendFinished_step s hst hs hr
    case awaitApplicationData => exact absurd hst h1
    case halfClosedLocal => exact absurd hst h2
    case closed => exact absurd hst h3

end Client

/-- Everything a client can start from: a plain start or the start after a hybrid ClientHello. -/
inductive ClientStart (env : PEnv) (cfg : Cfg) : Option (Nat × Nat) → Ses CSt → Prop where
  | plain (now : Nat) : ClientStart env cfg none (C13.start env cfg now)
  | hybrid (random transcript : Bytes) (kx : Nat × Nat) (now : Nat) :
      ClientStart env cfg (some kx) (C13.startHybrid env cfg random transcript kx now)

theorem ClientStart.tale {env : PEnv} {cfg : Cfg} {hyb : Option (Nat × Nat)} {s : Ses CSt}
    (h : ClientStart env cfg hyb s) : Tale C13.role (Client.Stage env hyb) (Client.Done env hyb) [] s := by
  have ho : InOrder [] := by
    intro pre d post e
    cases pre <;> cases e
  cases h with
  | plain now =>
    exact ⟨⟨rfl, fun x h => nomatch h⟩, rfl, (fun h => nomatch h), (fun h => nomatch h), ho⟩
  | hybrid random transcript kx now =>
    exact ⟨⟨rfl, fun x h => .inl h⟩, rfl, (fun h => nomatch h), (fun h => nomatch h), ho⟩

/-- **C41, client.** Connected is queued at most once (counting those already output), and when it has
been, the client has received a ServerHello it accepts, certificates, a CertificateVerify whose signature
over the transcript verified, and a Finished whose verify_data is right for a transcript containing both. -/
theorem client_connected {env : PEnv} {cfg : Cfg} {hyb : Option (Nat × Nat)} {s0 : Ses CSt}
    (h0 : ClientStart env cfg hyb s0) (cs : List Call) :
    let r := run C13.role env s0 cs
    (outputs r.1).count .connected + r.2.events.count .connected ≤ 1 ∧
    (0 < (outputs r.1).count .connected + r.2.events.count .connected → Client.Done env hyb r.2) := by
  have h := (((Client.saga env hyb).story (C13.tail env)).run [] cs s0 h0.tale).1
  rw [List.nil_append] at h
  exact ⟨h.told, h.done⟩

/-- **C44, client.** Past the ServerHello, the suite in use is the one it named and is configured, and the
share it holds is in the group of our key exchange. -/
theorem client_negotiated {env : PEnv} {cfg : Cfg} {hyb : Option (Nat × Nat)} {s0 : Ses CSt}
    (h0 : ClientStart env cfg hyb s0) (cs : List Call) :
    let r := run C13.role env s0 cs
    (∀ x ∈ r.1, ¬ Stops x) → r.2.st ∉ [CSt.sendClientHello, .awaitServerHello, .closed] →
    ∃ full, ServerHelloOk env hyb r.2 full := by
  intro r hr hst
  have h : Client.Stage env hyb r.2.st r.2 :=
    ((((Client.saga env hyb).story (C13.tail env)).run [] cs s0 h0.tale).2 hr).stage
  revert h hst
  generalize r.2.st = st
  intro hst h
  cases st
  case sendClientHello => exact absurd (by decide) hst
  case awaitServerHello => exact absurd (by decide) hst
  case closed => exact absurd (by decide) hst
  case awaitEncryptedExtensions => exact ⟨_, h.2⟩
  case awaitCertificateRequest => exact ⟨_, h.2⟩
  case awaitCertificate => exact ⟨_, h.2⟩
  case awaitCertificateVerify => exact ⟨_, h.2⟩
  case awaitFinished => exact ⟨_, h.2.1⟩
  all_goals (obtain ⟨_, pre, _, h, _⟩ := h; exact ⟨pre, h⟩)

/-- **C17, client.** Application data is output only after Connected. -/
theorem client_no_early_data {env : PEnv} {cfg : Cfg} {hyb : Option (Nat × Nat)} {s0 : Ses CSt}
    (h0 : ClientStart env cfg hyb s0) (cs : List Call) :
    ∀ pre d post, outputs (run C13.role env s0 cs).1 = pre ++ .eng (.appData d) :: post → .connected ∈ pre := by
  have h := (((Client.saga env hyb).story (C13.tail env)).run [] cs s0 h0.tale).1
  rw [List.nil_append] at h
  exact h.ordered

end Verif.Props.Shake13

import Verif.Props.Shake12
import Verif.Lemmas.Only12
/-!
# What a DTLS 1.2 server checked before it reports Connected (C40, C42, C43, C44)
-/
namespace Verif.Props.Shake12
open Verif Wire Window Timer Aead M E12

/-- `x` is the first of `l` with the property. -/
def FirstOf (ok : Nat → Prop) (l : List Nat) (x : Nat) : Prop :=
  ∃ pre post, l = pre ++ x :: post ∧ ok x ∧ ∀ y ∈ pre, ¬ ok y

/-- The ClientHello the server went on with: the suite is the first of the client's that is configured
and fits the key, the cookie is the one for the client's random, the SRTP profile is the first of
AES-256-GCM, AES-128-GCM, AES-128-CM-SHA1-80 in the client's list. -/
def ClientHelloOk {St : Type} (env : PEnv) (s : Ses St) : Prop :=
  ∃ body ch cs, Got s mtClientHello body ∧ env.parseClientHello body = some ([], ch) ∧
    ch.version = 0xFEFD ∧ s.eng.suite = some cs ∧
    FirstOf (fun x => x ∈ env.allowed ∧ env.compatible x = true) ch.suites cs ∧
    s.peerRandom = some ch.random ∧
    (env.useCookie = true → ch.cookie.length = 32 ∧ env.hmac env.cookieSecret ch.random = some ch.cookie) ∧
    (∃ d, (23, d) ∈ ch.exts) ∧
    (∀ p, s.srtp = some p → ∃ d ps, (14, d) ∈ ch.exts ∧ env.parseUseSrtp d = some ps ∧
      FirstOf (· ∈ ps) [8, 7, 1] p) ∧
    (∀ gs, s.clientGroups = some gs → ∃ d, (10, d) ∈ ch.exts ∧ env.parseGroups d = some gs) ∧
    (s.clientGroups = none → ∀ d, (10, d) ∉ ch.exts) ∧
    (∀ l, s.clientSigs = some l → ∃ d, (13, d) ∈ ch.exts ∧ env.parseSigAlgs d = some l) ∧
    (s.clientSigs = none → ∀ d, (13, d) ∈ ch.exts → env.parseSigAlgs d = none)

/-- The ServerHello sent names the suite and SRTP profile in use. -/
def HelloSent {St : Type} (env : PEnv) (s : Ses St) : Prop :=
  ∃ pre seq random sid cs, s.eng.suite = some cs ∧
    After s pre mtServerHello seq (env.serverHelloBody random sid cs s.srtp)

/-- A signature algorithm to sign with: one the client offered. If it offered none that the key can sign with, by
type and hash, or did not say, then it is the key's own. Hash 4 is SHA-256, 5 SHA-384. -/
def SigChosen (env : PEnv) (offered : Option (List Nat)) (alg : Nat) : Prop :=
  ∃ sig hash, env.keySig = some sig ∧ env.keyHash = some hash ∧
    ((∃ l, offered = some l ∧ alg ∈ l ∧ alg % 256 = sig ∧ alg / 256 ∈ env.keyHashes) ∨
      (alg = 256 * hash + sig ∧ ∀ l, offered = some l → ∀ a ∈ l, a % 256 = sig → a / 256 ∈ [4, 5] →
        a / 256 ∉ env.keyHashes))

/-- PSK, or the key exchange sent names the first configured group the client offered (the first
configured one if it offered none). It is signed with an algorithm chosen as above. -/
def GroupOk {St : Type} (env : PEnv) (s : Ses St) : Prop :=
  ∃ cs, s.eng.suite = some cs ∧ (Config.isPsk cs = true ∨
    ∃ pre seq g share alg sig, After s pre mtServerKeyExchange seq ([3] ++ beBytes 2 g ++
        [UInt8.ofNat share.length] ++ share ++ beBytes 2 alg ++ beBytes 2 sig.length ++ sig) ∧
      g ∈ env.providerGroups ∧ SigChosen env s.clientSigs alg ∧
      ((∃ gs, s.clientGroups = some gs ∧ FirstOf (· ∈ gs) env.groups g) ∨
        (s.clientGroups = none ∧ ∃ rest, env.groups = g :: rest)))

/-- PSK, or no client certificate is required, or a Certificate message came. -/
def CertAsked {St : Type} (env : PEnv) (s : Ses St) : Prop :=
  ∃ cs, s.eng.suite = some cs ∧ (Config.isPsk cs = true ∨ env.requireClientCert = false ∨
    ∃ body, Got s mtCertificate body ∧ env.parseCertificate body = some ([], s.peerCerts))

/-- The client owns its certificate: its CertificateVerify signs the transcript before it. -/
def CvOk {St : Type} (env : PEnv) (s : Ses St) : Prop :=
  s.peerCerts ≠ [] → ∃ c pre seq body alg sig, s.peerCerts.head? = some c ∧
    .consumed seq mtCertificateVerify body ∈ s.eng.log ∧ After s pre mtCertificateVerify seq body ∧
    env.parseCertificateVerify body = some ([], (alg, sig)) ∧ env.verifySig c pre alg sig = true

/-- The client named an identity for which there is a key. -/
def PskIn {St : Type} (env : PEnv) (s : Ses St) : Prop :=
  ∃ cs body identity f key, s.eng.suite = some cs ∧ Got s mtClientKeyExchange body ∧
    env.parseClientKx cs body = some ([], .psk identity) ∧ env.pskResolver = some f ∧ f identity = some key

/-- The Finished is right, and under PSK the identity was known. -/
def ServerFin {St : Type} (env : PEnv) (s : Ses St) : Prop :=
  FinOk env true s ∧ (∀ cs, s.eng.suite = some cs → Config.isPsk cs = true → PskIn env s)

section mono
variable {St : Type} {env : PEnv} {s s' : Ses St}

theorem ClientHelloOk.near (h : ClientHelloOk env s) (hn : Near s s') : ClientHelloOk env s' := by
  obtain ⟨b, ch, cs, h1, h2, h3, h4, h5, h6, h7, h8, h9⟩ := h
  refine ⟨b, ch, cs, h1.near hn, h2, h3, hn.suite.trans h4, h5, hn.peerRandom.trans h6, h7, h8, ?_⟩
  rw [hn.srtp, hn.clientGroups, hn.clientSigs]
  exact h9

theorem HelloSent.near (h : HelloSent env s) (hn : Near s s') : HelloSent env s' := by
  obtain ⟨pre, seq, r, sid, cs, h1, h2⟩ := h
  refine ⟨pre, seq, r, sid, cs, hn.suite.trans h1, ?_⟩
  rw [hn.srtp]
  exact h2.near hn

theorem GroupOk.near (h : GroupOk env s) (hn : Near s s') : GroupOk env s' := by
  obtain ⟨cs, h1, h2⟩ := h
  refine ⟨cs, hn.suite.trans h1, h2.imp_right ?_⟩
  rintro ⟨pre, seq, g, share, alg, sig, g1, g2⟩
  rw [hn.clientGroups, hn.clientSigs]
  exact ⟨pre, seq, g, share, alg, sig, g1.near hn, g2⟩

theorem CertAsked.near (h : CertAsked env s) (hn : Near s s') : CertAsked env s' := by
  obtain ⟨cs, h1, h2⟩ := h
  refine ⟨cs, hn.suite.trans h1, h2.imp_right (Or.imp_right ?_)⟩
  rintro ⟨b, g1, g2⟩
  rw [hn.peerCerts]
  exact ⟨b, g1.near hn, g2⟩

theorem CvOk.near (h : CvOk env s) (hn : Near s s') : CvOk env s' := by
  unfold CvOk at *
  rw [hn.peerCerts]
  intro hne
  obtain ⟨c, pre, seq, body, alg, sig, h1, h2, h3, h4⟩ := h hne
  obtain ⟨es, he⟩ := hn.log
  exact ⟨c, pre, seq, body, alg, sig, h1, (by rw [he]; exact List.mem_append_right _ h2), h3.near hn, h4⟩

theorem PskIn.near (h : PskIn env s) (hn : Near s s') : PskIn env s' := by
  obtain ⟨cs, b, i, f, k, h1, h2, h3⟩ := h
  exact ⟨cs, b, i, f, k, hn.suite.trans h1, h2.near hn, h3⟩

theorem ServerFin.later (h : ServerFin env s) (hl : Later s s') : ServerFin env s' :=
  ⟨h.1.later hl, fun cs h1 h2 => (h.2 cs (hl.suite.symm.trans h1) h2).near hl.toNear⟩

end mono

namespace Server

/-- Order of the states. -/
def rank : SSt → Nat
  | .awaitClientHello => 0
  | .sendServerHello => 1
  | .sendCertificate => 2
  | .sendServerKeyExchange => 3
  | .sendCertificateRequest => 4
  | .sendServerHelloDone => 5
  | .awaitCertificate => 6
  | .awaitClientKeyExchange => 7
  | .awaitCertificateVerify => 8
  | .awaitChangeCipherSpec => 9
  | .awaitFinished => 10
  | .sendChangeCipherSpec => 11
  | .sendFinished => 12
  | .awaitApplicationData => 13
  | .closed => 0

structure Stage (env : PEnv) (st : SSt) (s : Ses SSt) : Prop where
  start : st = .awaitClientHello → s.srtp = none ∧ s.pskValid = none
  none : rank st ≤ 6 ∧ st ≠ .closed → s.peerCerts = []
  hello : 1 ≤ rank st → ClientHelloOk env s
  sent : 2 ≤ rank st → HelloSent env s
  group : 4 ≤ rank st → GroupOk env s
  asked : 7 ≤ rank st → CertAsked env s
  cv : 9 ≤ rank st → CvOk env s
  fin : 11 ≤ rank st → ServerFin env s
  cert : CertIn env s
  psk : s.pskValid = some true → PskIn env s

/-- What a connected server has checked. -/
structure Done (env : PEnv) (s : Ses SSt) : Prop where
  hello : ClientHelloOk env s
  sent : HelloSent env s
  group : GroupOk env s
  asked : CertAsked env s
  cv : CvOk env s
  fin : ServerFin env s
  cert : CertIn env s

variable {env : PEnv}

theorem certIn_nil {St : Type} {s : Ses St} (h : s.peerCerts = []) : CertIn env s := by
  intro c hc; rw [h] at hc; cases hc

/-- A step to `new` that keeps what there is. -/
theorem Stage.go {st new : SSt} {s s' : Ses SSt} (h : Stage env st s) (hl : Later s s')
    (h0 : new = .awaitClientHello → st = .awaitClientHello)
    (hn : rank new ≤ 6 ∧ new ≠ .closed → rank st ≤ 6 ∧ st ≠ .closed)
    (h1 : 1 ≤ rank new → 1 ≤ rank st)
    (h2 : 2 ≤ rank new → 2 ≤ rank st ∨ HelloSent env s')
    (h3 : 4 ≤ rank new → 4 ≤ rank st ∨ GroupOk env s')
    (h4 : 7 ≤ rank new → 7 ≤ rank st ∨ CertAsked env s')
    (h5 : 9 ≤ rank new → 9 ≤ rank st ∨ CvOk env s')
    (h6 : 11 ≤ rank new → 11 ≤ rank st ∨ ServerFin env s') : Stage env new s' where
  start g := by rw [hl.srtp, hl.pskValid]; exact h.start (h0 g)
  none g := hl.peerCerts.trans (h.none (hn g))
  hello g := (h.hello (h1 g)).near hl.toNear
  sent g := (h2 g).elim (fun g => (h.sent g).near hl.toNear) id
  group g := (h3 g).elim (fun g => (h.group g).near hl.toNear) id
  asked g := (h4 g).elim (fun g => (h.asked g).near hl.toNear) id
  cv g := (h5 g).elim (fun g => (h.cv g).near hl.toNear) id
  fin g := (h6 g).elim (fun g => (h.fin g).later hl) id
  cert := h.cert.near hl.toNear
  psk g := (h.psk (hl.pskValid.symm.trans g)).near hl.toNear

theorem Stage.later {st : SSt} {s s' : Ses SSt} (h : Stage env st s) (hl : Later s s') : Stage env st s' :=
  h.go hl id id id .inl .inl .inl .inl .inl

/-- The loop over the client's extensions only looks. -/
theorem clientExtensions_spec (l : List (Nat × Bytes)) (x : S12.ChExts) (s : Ses SSt) :
    wp (S12.clientExtensions env l x) s
      (fun y t => t = s ∧ (y.ems = true → x.ems = true ∨ ∃ d, (23, d) ∈ l) ∧
        (∀ ps, y.srtp = some ps → x.srtp = some ps ∨ ∃ d, (14, d) ∈ l ∧ env.parseUseSrtp d = some ps) ∧
        (∀ gs, y.groups = some gs → x.groups = some gs ∨ ∃ d, (10, d) ∈ l ∧ env.parseGroups d = some gs) ∧
        (y.groups = none → x.groups = none ∧ ∀ d, (10, d) ∉ l))
      (fun _ t => t = s) := by
  induction l generalizing x with
  | nil => exact ⟨rfl, .inl, fun _ => .inl, fun _ => .inl, fun h => ⟨h, nofun⟩⟩
  | cons a rest ih =>
    obtain ⟨t, d⟩ := a
    unfold S12.clientExtensions
    simp only [bind_eq]
    have skip : ∀ {ps : List Nat} {n : Nat} {f : Bytes → Option (List Nat)} {P : Prop},
        (P ∨ ∃ d', (n, d') ∈ rest ∧ f d' = some ps) → P ∨ ∃ d', (n, d') ∈ (t, d) :: rest ∧ f d' = some ps :=
      fun h => h.imp_right fun ⟨d', h1, h2⟩ => ⟨d', List.mem_cons_of_mem _ h1, h2⟩
    have skip0 : ∀ {P : Prop}, (P ∨ ∃ d', (23, d') ∈ rest) → P ∨ ∃ d', (23, d') ∈ (t, d) :: rest :=
      fun h => h.imp_right fun ⟨d', h1⟩ => ⟨d', List.mem_cons_of_mem _ h1⟩
    have out : t ≠ 10 → (∀ d', (10, d') ∉ rest) → ∀ d', (10, d') ∉ (t, d) :: rest := by
      intro ht h d' hm
      cases hm with
      | head => exact ht rfl
      | tail _ hm => exact h d' hm
    split
    · rename_i h14
      subst h14
      rw [wp_bind]
      refine wp_orTransient_of (fun ps hps => ?_) rfl
      refine wp_mono (ih _) ?_ (fun _ _ h => h)
      rintro y u ⟨rfl, g1, g2, g3, g4⟩
      refine ⟨rfl, fun h => skip0 (g1 h), fun qs hq => ?_, fun gs hg => skip (g3 gs hg),
        fun h => ⟨(g4 h).1, out (by decide) (g4 h).2⟩⟩
      rcases g2 qs hq with g | g
      · cases g
        exact .inr ⟨d, List.mem_cons_self, hps⟩
      · exact (skip (P := False) (.inr g)).imp_left False.elim
    split
    · rename_i h23
      subst h23
      refine wp_mono (ih _) ?_ (fun _ _ h => h)
      rintro y u ⟨rfl, g1, g2, g3, g4⟩
      exact ⟨rfl, fun _ => .inr ⟨d, List.mem_cons_self⟩, fun qs hq => skip (g2 qs hq), fun gs hg => skip (g3 gs hg),
        fun h => ⟨(g4 h).1, out (by decide) (g4 h).2⟩⟩
    split
    · rename_i h10
      subst h10
      rw [wp_bind]
      refine wp_orTransient_of (fun ps hps => ?_) rfl
      refine wp_mono (ih _) ?_ (fun _ _ h => h)
      rintro y u ⟨rfl, g1, g2, g3, g4⟩
      refine ⟨rfl, fun h => skip0 (g1 h), fun qs hq => skip (g2 qs hq), fun gs hg => ?_,
        fun h => (by cases (g4 h).1)⟩
      rcases g3 gs hg with g | g
      · cases g
        exact .inr ⟨d, List.mem_cons_self, hps⟩
      · exact (skip (P := False) (.inr g)).imp_left False.elim
    rename_i h10
    split
    · rw [wp_bind]
      refine wp_orTransient_of (fun _ _ => ?_) rfl
      refine wp_mono (ih _) ?_ (fun _ _ h => h)
      rintro y u ⟨rfl, g1, g2, g3, g4⟩
      exact ⟨rfl, fun h => skip0 (g1 h), fun qs hq => skip (g2 qs hq), fun gs hg => skip (g3 gs hg),
        fun h => ⟨(g4 h).1, out h10 (g4 h).2⟩⟩
    split
    · refine wp_mono (ih _) ?_ (fun _ _ h => h)
      rintro y u ⟨rfl, g1, g2, g3, g4⟩
      refine ⟨rfl, fun h => skip0 ?_, fun qs hq => skip ?_, fun gs hg => skip ?_, fun h => ⟨?_, out h10 (g4 h).2⟩⟩
      · have := g1 h; split at this <;> exact this
      · have := g2 qs hq; split at this <;> exact this
      · have := g3 gs hg; split at this <;> exact this
      · have := (g4 h).1; split at this <;> exact this
    · refine wp_mono (ih _) ?_ (fun _ _ h => h)
      rintro y u ⟨rfl, g1, g2, g3, g4⟩
      exact ⟨rfl, fun h => skip0 (g1 h), fun qs hq => skip (g2 qs hq), fun gs hg => skip (g3 gs hg),
        fun h => ⟨(g4 h).1, out h10 (g4 h).2⟩⟩

/-- The signature algorithms are those of the last extension that parsed. -/
theorem clientExtensions_sigs (l : List (Nat × Bytes)) (x : S12.ChExts) (s : Ses SSt) :
    wp (S12.clientExtensions env l x) s
      (fun y _ => (∀ v, y.sigs = some v → x.sigs = some v ∨ ∃ d, (13, d) ∈ l ∧ env.parseSigAlgs d = some v) ∧
        (y.sigs = none → x.sigs = none ∧ ∀ d, (13, d) ∈ l → env.parseSigAlgs d = none))
      (fun _ _ => True) := by
  induction l generalizing x with
  | nil => exact ⟨fun _ => .inl, fun h => ⟨h, nofun⟩⟩
  | cons a rest ih =>
    obtain ⟨t, d⟩ := a
    have skip : ∀ {x' y : S12.ChExts}, t ≠ 13 → x'.sigs = x.sigs →
        ((∀ v, y.sigs = some v → x'.sigs = some v ∨ ∃ d, (13, d) ∈ rest ∧ env.parseSigAlgs d = some v) ∧
          (y.sigs = none → x'.sigs = none ∧ ∀ d, (13, d) ∈ rest → env.parseSigAlgs d = none)) →
        ((∀ v, y.sigs = some v → x.sigs = some v ∨ ∃ d', (13, d') ∈ (t, d) :: rest ∧ env.parseSigAlgs d' = some v) ∧
          (y.sigs = none → x.sigs = none ∧ ∀ d', (13, d') ∈ (t, d) :: rest → env.parseSigAlgs d' = none)) := by
      rintro x' y ht hx ⟨g1, g2⟩
      rw [hx] at g1 g2
      refine ⟨fun v hv => (g1 v hv).imp_right fun ⟨d', h1, h2⟩ => ⟨d', List.mem_cons_of_mem _ h1, h2⟩,
        fun h => ⟨(g2 h).1, fun d' hm => ?_⟩⟩
      cases hm with
      | head => exact absurd rfl ht
      | tail _ hm => exact (g2 h).2 d' hm
    unfold S12.clientExtensions
    simp only [bind_eq]
    split
    · rename_i h; subst h
      rw [wp_bind]
      refine wp_orTransient_of (fun _ _ => ?_) trivial
      exact wp_mono (ih _) (fun _ _ g => skip (by decide) rfl g) (fun _ _ _ => trivial)
    split
    · rename_i h; subst h
      exact wp_mono (ih _) (fun _ _ g => skip (by decide) rfl g) (fun _ _ _ => trivial)
    split
    · rename_i h; subst h
      rw [wp_bind]
      refine wp_orTransient_of (fun _ _ => ?_) trivial
      exact wp_mono (ih _) (fun _ _ g => skip (by decide) rfl g) (fun _ _ _ => trivial)
    split
    · rename_i h; subst h
      rw [wp_bind]
      refine wp_orTransient_of (fun _ _ => ?_) trivial
      exact wp_mono (ih _) (fun _ _ g => skip (by decide) rfl g) (fun _ _ _ => trivial)
    split
    · rename_i h; subst h
      refine wp_mono (ih _) ?_ (fun _ _ _ => trivial)
      rintro y _ ⟨g1, g2⟩
      cases hd : env.parseSigAlgs d with
      | none =>
        rw [hd] at g1 g2
        refine ⟨fun v hv => (g1 v hv).imp_right fun ⟨d', h1, h2⟩ => ⟨d', List.mem_cons_of_mem _ h1, h2⟩,
          fun h => ⟨(g2 h).1, fun d' hm => ?_⟩⟩
        cases hm with
        | head => exact hd
        | tail _ hm => exact (g2 h).2 d' hm
      | some ss =>
        rw [hd] at g1 g2
        refine ⟨fun v hv => .inr ?_, fun h => by cases (g2 h).1⟩
        rcases g1 v hv with g | ⟨d', h1, h2⟩
        · cases g
          exact ⟨d, List.mem_cons_self, hd⟩
        · exact ⟨d', List.mem_cons_of_mem _ h1, h2⟩
    · rename_i h
      exact wp_mono (ih _) (fun _ _ g => skip h rfl g) (fun _ _ _ => trivial)

theorem findSig_some {l hashes : List Nat} {sig h a : Nat} (hf : S12.findSig l sig hashes h = some a) :
    a ∈ l ∧ a % 256 = sig ∧ a / 256 ∈ hashes := by
  unfold S12.findSig at hf
  split at hf
  · rename_i hh
    have h1 := List.mem_of_find?_eq_some hf
    have h2 := List.find?_some hf
    simp only [Bool.and_eq_true, beq_iff_eq] at h2
    exact ⟨h1, h2.1, by rw [h2.2]; simpa using hh⟩
  · cases hf

theorem findSig_none {l hashes : List Nat} {sig h a : Nat} (hf : S12.findSig l sig hashes h = none) (hm : a ∈ l)
    (hs : a % 256 = sig) (ha : a / 256 = h) : h ∉ hashes := by
  unfold S12.findSig at hf
  split at hf
  · have := List.find?_eq_none.mp hf a hm
    simp [hs, ha] at this
  · rename_i hh
    simpa using hh

theorem selectSig_chosen {sg ha : Nat} (offered : Option (List Nat)) (h1 : env.keySig = some sg) (h2 : env.keyHash = some ha) :
    SigChosen env offered (S12.selectSig offered sg ha env.keyHashes) := by
  refine ⟨sg, ha, h1, h2, ?_⟩
  unfold S12.selectSig
  cases offered with
  | none => exact .inr ⟨rfl, nofun⟩
  | some l =>
    dsimp only
    generalize hp : (if ha = 5 then [5, 4] else [4, 5] : List Nat) = pref
    have hpm : ∀ h, h ∈ [4, 5] → h ∈ pref := by
      intro h hh
      simp only [List.mem_cons, List.not_mem_nil, or_false] at hh
      rw [← hp]; split <;> simp only [List.mem_cons, List.not_mem_nil, or_false] <;> omega
    cases hf : pref.findSome? (S12.findSig l sg env.keyHashes) with
    | some a =>
      obtain ⟨h, _, hh⟩ := List.exists_of_findSome?_eq_some hf
      obtain ⟨g1, g2, g3⟩ := findSig_some hh
      exact .inl ⟨l, rfl, g1, g2, g3⟩
    | none =>
      refine .inr ⟨rfl, fun l' hl a ham has hah => ?_⟩
      cases hl
      exact findSig_none (List.findSome?_eq_none_iff.mp hf _ (hpm _ hah)) ham has rfl

theorem find_first {p : Nat → Bool} {ok : Nat → Prop} {l : List Nat} {x : Nat} (hp : ∀ y, p y = true ↔ ok y)
    (h : l.find? p = some x) : FirstOf ok l x := by
  obtain ⟨h1, pre, post, h2, h3⟩ := List.find?_eq_some_iff_append.mp h
  refine ⟨pre, post, h2, (hp x).mp h1, fun y hy hk => ?_⟩
  have := h3 y hy
  rw [(hp y).mpr hk] at this
  cases this

theorem awaitClientHello_stage (s : Ses SSt) (h : Stage env .awaitClientHello s) :
    wp (S12.awaitClientHello env) s (fun new s' => s'.st = s.st ∧ Stage env new s')
      (fun _ s' => s'.st = s.st ∧ Stage env .awaitClientHello s') := by
  obtain ⟨h0, h1⟩ := h.start rfl
  have h2 := h.none (by decide)
  have bad : ∀ s' : Ses SSt, s'.st = s.st → s'.srtp = none → s'.pskValid = none → s'.peerCerts = [] →
      s'.st = s.st ∧ Stage env .awaitClientHello s' := fun s' g1 g2 g3 g4 =>
    ⟨g1, fun _ => ⟨g2, g3⟩, fun _ => g4, nofun, nofun, nofun, nofun, nofun, nofun, certIn_nil g4,
      fun g => by rw [g3] at g; cases g⟩
  unfold S12.awaitClientHello
  simp only [bind_eq, pure_eq, wp_bind, wp_onEng]
  refine wp_mono (nextHandshake_ok env.toEnv mtClientHello s.eng (by decide)) ?_ ?_
  · rintro m e ⟨hg, ⟨rfl, rfl⟩ | ⟨b, seq, body, rfl, hlog, hp, htr⟩⟩
    · exact ⟨rfl, h⟩
    obtain ⟨ch, rfl, hx⟩ := parseBody_clientHello hp
    have hgot : ∀ s' : Ses SSt, s'.eng.log = e.log → Got s' mtClientHello body := fun s' hs =>
      ⟨seq, by rw [hs, hlog]; exact List.mem_cons_self⟩
    dsimp only
    simp only [wp_bind]
    refine wp_check_of (fun hv => ?_) (bad _ rfl h0 h1 h2)
    refine wp_check_of (fun _ => ?_) (bad _ rfl h0 h1 h2)
    split
    · rename_i hck
      unfold S12.acceptClientHello
      simp only [bind_eq, pure_eq, wp_bind]
      refine wp_orFatal_of (fun cs hcs => ?_) (bad _ rfl h0 h1 h2)
      rw [wp_onEng]
      refine wp_mono (setCipherSuite_wp ..) ?_ ?_
      · rintro _ e2 ⟨_, _, rfl⟩
        simp only [wp_modify]
        refine wp_mono (wp_and (clientExtensions_spec _ _ _) (clientExtensions_sigs _ _ _)) ?_ ?_
        · rintro x t ⟨⟨rfl, g1, g2, g3, g4⟩, g5, g6⟩
          refine wp_check_of (fun hems => ?_) (bad _ rfl h0 h1 h2)
          rw [wp_pure]
          refine ⟨rfl, nofun, fun _ => h2, fun _ => ?_, nofun, nofun, nofun, nofun, nofun, certIn_nil h2, ?_⟩
          · refine ⟨body, ch, cs, hgot _ rfl, hx, by simpa [verDtls12] using hv, rfl, ?_, rfl, ?_, ?_, ?_, ?_, ?_, ?_, ?_⟩
            · exact find_first (fun y => by simp) hcs
            · intro huc
              simp only [huc, Bool.not_true, Bool.false_or] at hck
              unfold S12.verifyCookie at hck
              split at hck
              · cases hck
              · rename_i hlen
                refine ⟨by omega, ?_⟩
                unfold S12.computeCookie at hck
                split at hck
                · rename_i ex hex
                  rw [hex]
                  exact congrArg some (by simpa using hck)
                · cases hck
            · rcases g1 hems with g | g
              · cases g
              · exact g
            · intro p hpp
              have hpp : (match x.srtp with | some ps => S12.selectSrtp ps | none => s.srtp) = some p := hpp
              split at hpp
              · rename_i ps hps
                rcases g2 ps hps with g | ⟨d, gd, gp⟩
                · cases g
                · exact ⟨d, ps, gd, gp, find_first (fun y => by simp) hpp⟩
              · rw [h0] at hpp; cases hpp
            · intro gs hgs
              rcases g3 gs hgs with g | g
              · cases g
              · exact g
            · exact fun hn => (g4 hn).2
            · intro l hl
              rcases g5 l hl with g | g
              · cases g
              · exact g
            · exact fun hn => (g6 hn).2
          · intro g
            have g : s.pskValid = some true := g
            rw [h1] at g; cases g
        · rintro _ t ⟨rfl, _⟩
          exact bad _ rfl h0 h1 h2
      · rintro _ e2 rfl
        exact bad _ rfl h0 h1 h2
    · have hpj : Proj (fun s : Ses SSt => ((s.peerCerts, s.srtp), s.pskValid, s.st)) := fun _ _ _ => rfl
      have hk : Keeps (fun s : Ses SSt => ((s.peerCerts, s.srtp), s.pskValid, s.st))
          (S12.sendHelloVerify env ch.random) := by
        unfold S12.sendHelloVerify; simp only [bind_eq, pure_eq]; keeps
      have hr : Rets (· = SSt.awaitClientHello) (S12.sendHelloVerify env ch.random) := by
        unfold S12.sendHelloVerify; simp only [bind_eq, pure_eq]; goes
      have hk := hk { s with eng := e }
      have k1 := congrArg (fun x => x.1.1) hk
      have k2 := congrArg (fun x => x.1.2) hk
      have k3 := congrArg (fun x => x.2.1) hk
      have k4 := congrArg (fun x => x.2.2) hk
      dsimp only at k1 k2 k3 k4
      have hw := wp_and (to_wp (m := S12.sendHelloVerify env ch.random) (s := { s with eng := e })
        (R := fun s' => s'.st = s.st ∧ Stage env .awaitClientHello s')
        (bad _ k4 (k2.trans h0) (k3.trans h1) (k1.trans h2))) (Rets.wp hr _)
      refine wp_mono hw ?_ ?_
      · rintro _ s' ⟨g, rfl⟩; exact g
      · rintro _ s' ⟨g, _⟩; exact g
  · intro _ e _
    exact ⟨by trivial, (bad { s with eng := e } rfl h0 h1 h2).2⟩

theorem sendServerHello_stage (s : Ses SSt) (h : Stage env .sendServerHello s) :
    wp (S12.sendServerHello env) s (fun new s' => s'.st = s.st ∧ Stage env new s')
      (fun _ s' => s'.st = s.st ∧ Stage env .sendServerHello s') := by
  have hw := wp_and (SFr.wp (S12.step_later (env := env) .sendServerHello nofun nofun nofun) s)
    (Rets.wp (S12.step_next (env := env) .sendServerHello) s)
  have hs : wp (S12.sendServerHello env) s (fun _ s' => HelloSent env s') (fun _ _ => True) := by
    unfold S12.sendServerHello
    simp only [bind_eq, pure_eq, wp_bind, wp_onEng', wp_get]
    refine wp_orPanic_of (fun r hr => ?_) trivial
    refine wp_orFatal_of (fun cs hcs => ?_) trivial
    rw [wp_onEng]
    refine wp_of (fun _ e he => ?_) (fun _ _ _ => trivial)
    obtain ⟨seq, post, ht⟩ := createHandshake_ok he
    have hsu : e.suite = some cs := by
      have := (createHandshake_grow env.toEnv mtServerHello
        (env.serverHelloBody r (s.sessionId.getD []) cs s.srtp) (flightBegin env.toEnv s.eng)).suite
      rw [he] at this
      exact this.trans hcs
    rw [wp_pure]
    exact ⟨_, seq, r, _, cs, hsu, post, ht⟩
  refine wp_mono (wp_and hw hs) ?_ ?_
  · rintro new s' ⟨⟨⟨hl, hst⟩, hn⟩, hsent⟩
    refine ⟨hst, ?_⟩
    simp only [S12.next, List.mem_cons, List.not_mem_nil, or_false] at hn
    rcases hn with rfl | rfl <;>
      exact h.go hl nofun (fun _ => by decide) (fun _ => by decide) (fun _ => .inr hsent)
        (fun g => absurd g (by decide)) (fun g => absurd g (by decide)) (fun g => absurd g (by decide))
        (fun g => absurd g (by decide))
  · rintro _ s' ⟨⟨⟨hl, hst⟩, _⟩, _⟩
    exact ⟨hst, h.later hl⟩

theorem sendServerKeyExchange_stage (s : Ses SSt) (h : Stage env .sendServerKeyExchange s) :
    wp (S12.sendServerKeyExchange env) s (fun new s' => s'.st = s.st ∧ Stage env new s')
      (fun _ s' => s'.st = s.st ∧ Stage env .sendServerKeyExchange s') := by
  have hw := wp_and (SFr.wp (S12.step_later (env := env) .sendServerKeyExchange nofun nofun nofun) s)
    (Rets.wp (S12.step_next (env := env) .sendServerKeyExchange) s)
  have hs : wp (S12.sendServerKeyExchange env) s (fun _ s' => Later s s' → GroupOk env s') (fun _ _ => True) := by
    unfold S12.sendServerKeyExchange
    simp only [bind_eq, wp_bind, wp_get]
    refine wp_orFatal_of (fun cs hcs => ?_) trivial
    split
    · rename_i hpsk
      refine wp_of (fun _ s' _ hl => ⟨cs, hl.suite.trans hcs, .inl hpsk⟩) (fun _ _ _ => trivial)
    · unfold S12.sendServerKeyExchangeEcdhe
      simp only [bind_eq, pure_eq, wp_bind, wp_get]
      refine wp_orFatal_of (fun cr _ => ?_) trivial
      refine wp_orPanic_of (fun sr _ => ?_) trivial
      refine wp_orFatal_of (fun g hg => ?_) trivial
      refine wp_orPanic_of (fun sg hsg => ?_) trivial
      refine wp_orPanic_of (fun ha hha => ?_) trivial
      have hch := selectSig_chosen s.clientSigs hsg hha
      generalize S12.selectSig s.clientSigs sg ha env.keyHashes = alg at hch
      -- the body names the group and the algorithm
      have hb : wp (S12.serverKeyExchangeBody env cr sr g alg) s
          (fun b _ => g ∈ env.providerGroups ∧ ∃ share sig, b = [3] ++ beBytes 2 g ++
            [UInt8.ofNat share.length] ++ share ++ beBytes 2 alg ++ beBytes 2 sig.length ++ sig) (fun _ _ => True) := by
        unfold S12.serverKeyExchangeBody
        simp only [bind_eq, pure_eq, wp_bind, wp_get]
        refine wp_check_of (fun hc => ?_) trivial
        refine wp_of (fun n s1 _ => ?_) (fun _ _ _ => trivial)
        refine wp_orFatal_of (fun ours _ => ?_) trivial
        rw [wp_modify]
        refine wp_orFatal_of (fun sig _ => ?_) trivial
        rw [wp_pure]
        exact ⟨by simpa using hc, s.kxPub.getD ours, sig, rfl⟩
      refine wp_mono (wp_and hb (SFr.wp (S12.serverKeyExchangeBody_later cr sr g alg) s)) ?_ (fun _ _ _ => trivial)
      rintro b s1 ⟨⟨hpg, share, sig, rfl⟩, hl1, _⟩
      rw [wp_onEng]
      refine wp_of (fun _ e he => ?_) (fun _ _ _ => trivial)
      obtain ⟨seq, post, ht⟩ := createHandshake_ok he
      rw [wp_pure]
      intro hl
      refine ⟨cs, hl.suite.trans hcs, .inr ⟨_, seq, g, share, alg, sig, ⟨post, ht⟩, hpg, ?_, ?_⟩⟩
      · rw [hl.clientSigs]; exact hch
      rw [hl.clientGroups]
      unfold S12.selectGroup at hg
      split at hg
      · rename_i gs hgs
        exact .inl ⟨gs, hgs, find_first (fun y => by simp) hg⟩
      · rename_i hgs
        exact .inr ⟨hgs, List.head?_eq_some_iff.mp hg⟩
  refine wp_mono (wp_and hw hs) ?_ ?_
  · rintro new s' ⟨⟨⟨hl, hst⟩, hn⟩, hok⟩
    refine ⟨hst, ?_⟩
    simp only [S12.next, List.mem_cons, List.not_mem_nil, or_false] at hn
    rcases hn with rfl | rfl <;>
      exact h.go hl nofun (fun _ => by decide) (fun _ => by decide) (fun _ => .inl (by decide))
        (fun _ => .inr (hok hl)) (fun g => absurd g (by decide)) (fun g => absurd g (by decide))
        (fun g => absurd g (by decide))
  · rintro _ s' ⟨⟨⟨hl, hst⟩, _⟩, _⟩
    exact ⟨hst, h.later hl⟩

theorem sendServerHelloDone_stage (s : Ses SSt) (h : Stage env .sendServerHelloDone s) :
    wp (S12.sendServerHelloDone env) s (fun new s' => s'.st = s.st ∧ Stage env new s')
      (fun _ s' => s'.st = s.st ∧ Stage env .sendServerHelloDone s') := by
  have hw := SFr.wp (S12.step_later (env := env) .sendServerHelloDone nofun nofun nofun) s
  have hs : wp (S12.sendServerHelloDone env) s (fun new s' => new = .awaitCertificate ∨
      new = .awaitClientKeyExchange ∧ CertAsked env s') (fun _ _ => True) := by
    unfold S12.sendServerHelloDone
    simp only [bind_eq, pure_eq, wp_bind, wp_onEng, wp_get]
    refine wp_of (fun _ e _ => ?_) (fun _ _ _ => trivial)
    refine wp_orFatal_of (fun cs hcs => ?_) trivial
    rw [wp_pure]
    split
    · rename_i hpsk
      exact .inr ⟨rfl, cs, hcs, .inl hpsk⟩
    · split
      · exact .inl rfl
      · rename_i hr
        exact .inr ⟨rfl, cs, hcs, .inr (.inl (by simpa using hr))⟩
  refine wp_mono (wp_and hw hs) ?_ ?_
  · rintro new s' ⟨⟨hl, hst⟩, rfl | ⟨rfl, hok⟩⟩
    · exact ⟨hst, h.go hl nofun (fun _ => by decide) (fun _ => by decide) (fun _ => .inl (by decide))
        (fun _ => .inl (by decide)) (fun g => absurd g (by decide)) (fun g => absurd g (by decide))
        (fun g => absurd g (by decide))⟩
    · exact ⟨hst, h.go hl nofun (fun _ => by decide) (fun _ => by decide) (fun _ => .inl (by decide))
        (fun _ => .inl (by decide)) (fun _ => .inr hok) (fun g => absurd g (by decide))
        (fun g => absurd g (by decide))⟩
  · rintro _ s' ⟨⟨hl, hst⟩, _⟩
    exact ⟨hst, h.later hl⟩

theorem awaitCertificate_stage (s : Ses SSt) (h : Stage env .awaitCertificate s) :
    wp (S12.awaitCertificate env) s (fun new s' => s'.st = s.st ∧ Stage env new s')
      (fun _ s' => s'.st = s.st ∧ Stage env .awaitCertificate s') := by
  have h0 := h.none (by decide)
  unfold S12.awaitCertificate
  simp only [bind_eq, pure_eq, wp_bind, wp_onEng]
  refine wp_mono (nextHandshake_ok env.toEnv mtCertificate s.eng (by decide)) ?_ ?_
  · rintro m e ⟨hg, ⟨rfl, rfl⟩ | ⟨b, seq, body, rfl, hlog, hp, htr⟩⟩
    · exact ⟨rfl, h⟩
    obtain ⟨x, rfl, hx⟩ := parseBody_certificate hp
    have hl : Later s { s with eng := e } := Later.rel.eng _ _ hg
    have h' := h.later hl
    obtain ⟨_, _, cs, _, _, _, hcs, _⟩ := h'.hello (by decide)
    have hgot : .consumed seq mtCertificate body ∈ e.log := by rw [hlog]; exact List.mem_cons_self
    dsimp only
    split
    · rename_i hem
      have : x = [] := by simpa using hem
      subst this
      rw [wp_pure]
      exact ⟨rfl, h.go hl nofun (fun _ => by decide) (fun _ => by decide) (fun _ => .inl (by decide))
        (fun _ => .inl (by decide))
        (fun _ => .inr ⟨cs, hcs, .inr (.inr ⟨body, ⟨seq, hgot⟩, (by show _ = some ([], s.peerCerts); rw [h0]; exact hx)⟩)⟩)
        (fun g => absurd g (by decide)) (fun g => absurd g (by decide))⟩
    · rw [wp_bind, wp_modify, wp_pure]
      refine ⟨rfl, nofun, fun g => absurd g.1 (by decide), fun _ => ?_, fun _ => ?_, fun _ => ?_, fun _ => ?_,
        fun g => absurd g (by decide), fun g => absurd g (by decide), ?_, ?_⟩
      · obtain ⟨b, ch, cs, g⟩ := h'.hello (by decide)
        exact ⟨b, ch, cs, g⟩
      · obtain ⟨pre, q, r, sid, cs, g⟩ := h'.sent (by decide)
        exact ⟨pre, q, r, sid, cs, g⟩
      · obtain ⟨cs, g⟩ := h'.group (by decide)
        exact ⟨cs, g⟩
      · refine ⟨cs, hcs, .inr (.inr ⟨body, ⟨seq, hgot⟩, ?_⟩)⟩
        show _ = some ([], s.peerCerts ++ x)
        rw [h0]; exact hx
      · intro c hc
        have hc : (s.peerCerts ++ x).head? = some c := hc
        rw [h0, List.nil_append] at hc
        exact ⟨body, x, ⟨seq, hgot⟩, hx, hc⟩
      · intro g
        obtain ⟨cs, b, i, f, k, g⟩ := h'.psk g
        exact ⟨cs, b, i, f, k, g⟩
  · intro _ e hg
    exact ⟨by trivial, h.later (Later.rel.eng _ _ hg)⟩

theorem finishClientKx_spec (cs : Nat) (s : Ses SSt) :
    wp (S12.finishClientKx env cs) s
      (fun new s' => (Near s s' ∧ s'.st = s.st ∧ s'.pskValid = s.pskValid) ∧
        (new = .awaitCertificateVerify ∨ new = .awaitChangeCipherSpec ∧ s'.peerCerts = []))
      (fun _ s' => Near s s' ∧ s'.st = s.st ∧ s'.pskValid = s.pskValid) := by
  have hpj : Proj (fun s : Ses SSt => s.pskValid) := fun _ _ _ => rfl
  unfold S12.finishClientKx
  simp only [bind_eq, pure_eq, wp_bind, wp_get, wp_modify]
  have h1 : Near s { s with sessionHash := some s.eng.transcript } := .mod rfl rfl rfl rfl rfl rfl rfl rfl
  refine wp_orPanic_of (fun cr _ => ?_) ⟨h1, rfl, rfl⟩
  refine wp_orPanic_of (fun sr _ => ?_) ⟨h1, rfl, rfl⟩
  have hk : Keeps (fun s : Ses SSt => s.pskValid) (deriveMaster env cs s.eng.transcript cr sr) := by
    unfold deriveMaster; simp only [bind_eq]; keeps
  have hw := wp_and (SFr.wp (derive_near (St := SSt) (env := env) cs s.eng.transcript cr sr)
    { s with sessionHash := some s.eng.transcript }) (to_wp (R := fun s' => s'.pskValid = s.pskValid)
      (hk { s with sessionHash := some s.eng.transcript }))
  refine wp_mono hw ?_ ?_
  · rintro _ s' ⟨⟨hn, hst⟩, hp⟩
    rw [wp_pure]
    refine ⟨⟨Near.rel.trans _ _ _ h1 hn, hst, hp⟩, ?_⟩
    have hpc := hn.peerCerts
    split
    · rename_i he
      exact .inr ⟨rfl, hpc.trans (by simpa using he)⟩
    · exact .inl rfl
  · rintro _ s' ⟨⟨hn, hst⟩, hp⟩
    exact ⟨Near.rel.trans _ _ _ h1 hn, hst, hp⟩

theorem awaitClientKeyExchange_stage (s : Ses SSt) (h : Stage env .awaitClientKeyExchange s) :
    wp (S12.awaitClientKeyExchange env) s (fun new s' => s'.st = s.st ∧ Stage env new s')
      (fun _ s' => s'.st = s.st ∧ Stage env .awaitClientKeyExchange s') := by
  -- all that matters here
  have move : ∀ new s', Near s s' → (s'.pskValid = some true → PskIn env s') →
      (new = .awaitClientKeyExchange ∨ new = .awaitCertificateVerify ∨
        new = .awaitChangeCipherSpec ∧ s'.peerCerts = []) → Stage env new s' := by
    intro new s' hn hp hnew
    have hr : new ≠ .awaitClientHello ∧ ¬ rank new ≤ 6 ∧ (9 ≤ rank new → s'.peerCerts = []) ∧ ¬ 11 ≤ rank new := by
      rcases hnew with rfl | rfl | ⟨rfl, hc⟩
      · exact ⟨nofun, by decide, fun g => absurd g (by decide), by decide⟩
      · exact ⟨nofun, by decide, fun g => absurd g (by decide), by decide⟩
      · exact ⟨nofun, by decide, fun _ => hc, by decide⟩
    exact ⟨fun g => absurd g hr.1, fun g => absurd g.1 hr.2.1, fun _ => (h.hello (by decide)).near hn,
      fun _ => (h.sent (by decide)).near hn, fun _ => (h.group (by decide)).near hn,
      fun _ => (h.asked (by decide)).near hn, fun g hne => absurd (hr.2.2.1 g) hne,
      fun g => absurd g hr.2.2.2, h.cert.near hn, hp⟩
  unfold S12.awaitClientKeyExchange
  simp only [bind_eq, pure_eq, wp_bind, wp_onEng]
  refine wp_mono (nextHandshake_ok env.toEnv mtClientKeyExchange s.eng (by decide)) ?_ ?_
  · rintro m e ⟨hg, ⟨rfl, rfl⟩ | ⟨b, seq, body, rfl, hlog, hp, htr⟩⟩
    · exact ⟨rfl, h⟩
    obtain ⟨cs, k, hcs, rfl, hk⟩ := parseBody_clientKx hp
    have hn : Near s { s with eng := e } := Near.rel.eng _ _ hg
    have hl : Later s { s with eng := e } := Later.rel.eng _ _ hg
    have hpsk0 : ∀ s' : Ses SSt, Near { s with eng := e } s' → s'.pskValid = s.pskValid →
        s'.pskValid = some true → PskIn env s' := fun s' g1 g2 g3 =>
      ((h.psk (g2.symm.trans g3)).near hn).near g1
    have bad : s.st = s.st ∧ Stage env .awaitClientKeyExchange { s with eng := e } :=
      ⟨rfl, move _ _ hn (hpsk0 _ (Near.rel.refl _) rfl) (.inl rfl)⟩
    -- the end, from any state reached on the way
    have finish : ∀ s1 : Ses SSt, Near { s with eng := e } s1 → s1.st = s.st →
        (∀ s', Near s1 s' → s'.pskValid = s1.pskValid → s'.pskValid = some true → PskIn env s') →
        wp (S12.finishClientKx env cs) s1 (fun new s' => s'.st = s.st ∧ Stage env new s')
          (fun _ s' => s'.st = s.st ∧ Stage env .awaitClientKeyExchange s') := by
      intro s1 g1 g2 g3
      refine wp_mono (finishClientKx_spec cs s1) ?_ ?_
      · rintro new s' ⟨⟨k1, k2, k3⟩, k4⟩
        exact ⟨k2.trans g2, move _ _ (Near.rel.trans _ _ _ hn (Near.rel.trans _ _ _ g1 k1)) (g3 _ k1 k3) (.inr k4)⟩
      · rintro _ s' ⟨k1, k2, k3⟩
        exact ⟨k2.trans g2, move _ _ (Near.rel.trans _ _ _ hn (Near.rel.trans _ _ _ g1 k1)) (g3 _ k1 k3) (.inl rfl)⟩
    dsimp only
    simp only [wp_bind, wp_get]
    refine wp_orFatal_of (fun cs' hcs' => ?_) bad
    have : cs' = cs := by
      have h1 : e.suite = some cs' := hcs'
      rw [hg.suite, hcs] at h1
      exact (Option.some.inj h1).symm
    subst this
    split
    · split
      · rename_i identity
        rw [wp_bind]
        unfold S12.clientKxPsk
        simp only [bind_eq, wp_bind]
        refine wp_orFatal_of (fun f hf => ?_) bad
        split
        · rename_i key hkey
          rw [wp_modify]
          refine finish _ (.mod rfl rfl rfl rfl rfl rfl rfl rfl) rfl ?_
          intro s' g1 _ _
          have hin : PskIn env ({ s with eng := e } : Ses SSt) := by
            refine ⟨cs', body, identity, f, key, hg.suite.trans hcs, ⟨seq, ?_⟩, hk, hf, hkey⟩
            show _ ∈ e.log
            rw [hlog]; exact List.mem_cons_self
          have g0 : Near ({ s with eng := e } : Ses SSt)
              { s with eng := e, pskValid := some true, pms := some (pskPms key) } :=
            .mod rfl rfl rfl rfl rfl rfl rfl rfl
          exact hin.near (Near.rel.trans _ _ _ g0 g1)
        · simp only [wp_bind]
          refine wp_of (fun n s1 hs1 => ?_) (fun _ _ hf => ?_)
          · cases hs1
            rw [wp_modify]
            refine finish _ (.mod rfl rfl rfl rfl rfl rfl rfl rfl) rfl ?_
            intro s' _ g2 g3
            rw [g2] at g3
            cases g3
          · cases hf
      · exact bad
    · split
      · rename_i pub
        rw [wp_bind]
        refine wp_mono (SFr.wp (S12.clientKxEcdh_later (env := env) pub) _) ?_ ?_
        · rintro _ s1 ⟨g1, g2⟩
          refine finish s1 g1.toNear g2 ?_
          intro s' k1 k2
          exact hpsk0 s' (Near.rel.trans _ _ _ g1.toNear k1) (k2.trans g1.pskValid)
        · rintro _ s1 ⟨g1, g2⟩
          exact ⟨g2, move _ _ (Near.rel.trans _ _ _ hn g1.toNear) (hpsk0 _ g1.toNear g1.pskValid) (.inl rfl)⟩
      · exact bad
  · intro _ e hg
    exact ⟨by trivial, h.later (Later.rel.eng _ _ hg)⟩

theorem awaitCertificateVerify_stage (s : Ses SSt) (h : Stage env .awaitCertificateVerify s) :
    wp (S12.awaitCertificateVerify env) s (fun new s' => s'.st = s.st ∧ Stage env new s')
      (fun _ s' => s'.st = s.st ∧ Stage env .awaitCertificateVerify s') := by
  unfold S12.awaitCertificateVerify
  simp only [bind_eq, pure_eq, wp_bind, wp_onEng, wp_get]
  refine wp_mono (nextHandshake_ok env.toEnv mtCertificateVerify s.eng (by decide)) ?_ ?_
  · rintro m e ⟨hg, ⟨rfl, rfl⟩ | ⟨b, seq, body, rfl, hlog, hp, htr⟩⟩
    · exact ⟨rfl, h⟩
    obtain ⟨⟨alg, sig⟩, rfl, hx⟩ := parseBody_certificateVerify hp
    have hl : Later s { s with eng := e } := Later.rel.eng _ _ hg
    dsimp only
    simp only [wp_bind]
    refine wp_orFatal_of (fun c hc => ?_) ⟨rfl, h.later hl⟩
    refine wp_check_of (fun hv => ?_) ⟨rfl, h.later hl⟩
    rw [wp_pure]
    refine ⟨rfl, h.go hl nofun (fun g => absurd g.1 (by decide)) (fun _ => by decide) (fun _ => .inl (by decide))
      (fun _ => .inl (by decide)) (fun _ => .inl (by decide)) (fun _ => .inr ?_) (fun g => absurd g (by decide))⟩
    intro _
    refine ⟨c, s.eng.transcript, seq, body, alg, sig, hc, ?_, ⟨[], ?_⟩, hx, hv⟩
    · show _ ∈ e.log
      rw [hlog]; exact List.mem_cons_self
    · rw [List.append_nil]; exact htr
  · intro _ e hg
    exact ⟨by trivial, h.later (Later.rel.eng _ _ hg)⟩

theorem awaitFinished_stage (s : Ses SSt) (h : Stage env .awaitFinished s) :
    wp (S12.awaitFinished env) s (fun new s' => s'.st = s.st ∧ Stage env new s')
      (fun _ s' => s'.st = s.st ∧ Stage env .awaitFinished s') := by
  unfold S12.awaitFinished
  simp only [bind_eq, pure_eq, wp_bind, wp_onEng]
  apply wp_of
  · intro v e he
    obtain ⟨m, cs, hm, hcs, hv, rfl⟩ := generateVerifyData_ok he
    refine wp_mono (nextHandshake_ok env.toEnv mtFinished s.eng (by decide)) ?_ ?_
    · rintro mm e ⟨hg, ⟨rfl, rfl⟩ | ⟨b, seq, body, rfl, hlog, hp, htr⟩⟩
      · exact ⟨rfl, h⟩
      have hl : Later s { s with eng := e } := Later.rel.eng _ _ hg
      obtain ⟨cs', x, hsu, rfl, hx⟩ := parseBody_finished hp
      rw [hcs] at hsu; cases hsu
      dsimp only
      simp only [wp_bind]
      refine wp_check_of (fun hc => ?_) ⟨rfl, h.later hl⟩
      have hc : x = v := by simpa using hc
      subst hc
      have hfin : FinOk env true ({ s with eng := e } : Ses SSt) := by
        refine ⟨m, cs, s.eng.transcript, seq, body, x, hg.master.trans hm, hg.suite.trans hcs, ?_, ⟨[], ?_⟩, hx, hv⟩
        · show _ ∈ e.log
          rw [hlog]; exact List.mem_cons_self
        · rw [List.append_nil]; exact htr
      rw [wp_get]
      split
      · exact ⟨rfl, h.later hl⟩
      · rename_i hnp
        rw [wp_bind]
        refine wp_check_of (fun hval => ?_) ⟨rfl, h.later hl⟩
        rw [wp_pure]
        refine ⟨rfl, h.go hl nofun (fun g => absurd g.1 (by decide)) (fun _ => by decide) (fun _ => .inl (by decide))
          (fun _ => .inl (by decide)) (fun _ => .inl (by decide)) (fun _ => .inl (by decide))
          (fun _ => .inr ⟨hfin, ?_⟩)⟩
        intro cs2 hcs2 hp2
        have hcs2 : e.suite = some cs2 := hcs2
        have hval : (s.pskValid != some false) = true := hval
        have hnp : ¬ (((e.suite.map Config.isPsk).getD false && s.pskValid.isNone) = true) := hnp
        rw [hcs2] at hnp
        simp only [Option.map_some, Option.getD_some, hp2, Bool.true_and] at hnp
        have : s.pskValid = some true := by
          cases hq : s.pskValid with
          | none => rw [hq] at hnp; exact absurd rfl hnp
          | some b =>
            cases b with
            | true => rfl
            | false => rw [hq] at hval; exact absurd hval (by decide)
        exact (h.psk this).near hl.toNear
    · intro _ e hg
      exact ⟨by trivial, h.later (Later.rel.eng _ _ hg)⟩
  · intro f e he
    have : e = s.eng := by
      have := generateVerifyData_snd env.toEnv true s.eng
      rw [he] at this
      exact this
    subst this
    exact ⟨by trivial, h⟩

/-- The states without a condition of their own. -/
theorem next_le (x new : SSt) (hn : new ∈ S12.next x)
    (hx : x = .sendCertificate ∨ x = .sendCertificateRequest ∨ x = .awaitChangeCipherSpec ∨
      x = .sendChangeCipherSpec ∨ x = .sendFinished ∨ x = .awaitApplicationData ∨ x = .closed) :
    (new = .awaitClientHello → x = .awaitClientHello) ∧
    (rank new ≤ 6 ∧ new ≠ .closed → rank x ≤ 6 ∧ x ≠ .closed) ∧
    (1 ≤ rank new → 1 ≤ rank x) ∧ (2 ≤ rank new → 2 ≤ rank x) ∧ (4 ≤ rank new → 4 ≤ rank x) ∧
    (7 ≤ rank new → 7 ≤ rank x) ∧ (9 ≤ rank new → 9 ≤ rank x) ∧ (11 ≤ rank new → 11 ≤ rank x) := by
  revert hn hx
  cases x <;> cases new <;> decide

theorem saga : Saga S12.role env (Stage env) (Done env) where
  later st s s' hl h := h.later hl.toLater
  closed st s h := ⟨nofun, fun g => absurd rfl g.2, nofun, nofun, nofun, nofun, nofun, nofun, h.cert, h.psk⟩
  app s h := ⟨h.hello (by decide), h.sent (by decide), h.group (by decide), h.asked (by decide),
    h.cv (by decide), h.fin (by decide), h.cert⟩
  done s s' hl h := ⟨h.hello.near hl.toNear, h.sent.near hl.toNear, h.group.near hl.toNear,
    h.asked.near hl.toNear, h.cv.near hl.toNear, h.fin.later hl.toLater, h.cert.near hl.toNear⟩
  step st s h := by
    have quick : st = .sendCertificate ∨ st = .sendCertificateRequest ∨ st = .awaitChangeCipherSpec ∨
        st = .sendChangeCipherSpec ∨ st = .sendFinished ∨ st = .awaitApplicationData ∨ st = .closed →
        st ≠ .awaitClientHello → st ≠ .awaitCertificate → st ≠ .awaitClientKeyExchange →
        wp (S12.step env st) s (fun new s' => s'.st = s.st ∧ Stage env new s')
          (fun _ s' => s'.st = s.st ∧ Stage env st s') := by
      intro hx a1 a2 a3
      refine wp_mono (wp_and (SFr.wp (S12.step_later (env := env) st a1 a2 a3) s)
        (Rets.wp (S12.step_next (env := env) st) s)) ?_ ?_
      · rintro new s' ⟨⟨hl, hst⟩, hn⟩
        obtain ⟨n0, n1, n2, n3, n4, n5, n6, n7⟩ := next_le _ _ hn hx
        exact ⟨hst, h.go hl n0 n1 n2 (fun g => .inl (n3 g)) (fun g => .inl (n4 g)) (fun g => .inl (n5 g))
          (fun g => .inl (n6 g)) (fun g => .inl (n7 g))⟩
      · rintro _ s' ⟨⟨hl, hst⟩, _⟩
        exact ⟨hst, h.later hl⟩
    cases st
    case awaitClientHello => exact awaitClientHello_stage s h
    case sendServerHello => exact sendServerHello_stage s h
    case sendServerKeyExchange => exact sendServerKeyExchange_stage s h
    case sendServerHelloDone => exact sendServerHelloDone_stage s h
    case awaitCertificate => exact awaitCertificate_stage s h
    case awaitClientKeyExchange => exact awaitClientKeyExchange_stage s h
    case awaitCertificateVerify => exact awaitCertificateVerify_stage s h
    case awaitFinished => exact awaitFinished_stage s h
    all_goals
      exact quick (by
        first
          | exact .inl rfl
          | exact .inr (.inl rfl)
          | exact .inr (.inr (.inl rfl))
          | exact .inr (.inr (.inr (.inl rfl)))
          | exact .inr (.inr (.inr (.inr (.inl rfl))))
          | exact .inr (.inr (.inr (.inr (.inr (.inl rfl)))))
          | exact .inr (.inr (.inr (.inr (.inr (.inr rfl)))))) nofun nofun nofun

/-! ## Whole connections -/

theorem start_onTrack (env : PEnv) (cfg : Cfg) (now : Nat) :
    OnTrack S12.role (Stage env) (Done env) (S12.start env cfg now) :=
  ⟨⟨fun _ => ⟨rfl, rfl⟩, fun _ => rfl, nofun, nofun, nofun, nofun, nofun, nofun, certIn_nil rfl, nofun⟩, nofun, nofun⟩

theorem onTrack (env : PEnv) (cfg : Cfg) (now : Nat) (cs : List Call) :
    OnTrack S12.role (Stage env) (Done env) (run S12.role env (S12.start env cfg now) cs).2 :=
  (Saga.stable S12.showRule (S12.roleOk env) saga).run _ cs (fun _ _ => trivial) (start_onTrack env cfg now)

end Server

/-- **C40, server.** Connected is queued at most once, and then the server has received a ClientHello
it could accept and a Finished with the verify_data for the transcript before it; under PSK the
identity was known to the application, and a client that presented certificates has signed the
transcript with the first of them. -/
theorem server_connected (env : PEnv) (cfg : Cfg) (now : Nat) (hd : DecShort env.toEnv) (cs : List Call) :
    let r := run S12.role env (S12.start env cfg now) cs
    (outputs r.1).count .connected + r.2.events.count .connected ≤ 1 ∧
    (0 < (outputs r.1).count .connected + r.2.events.count .connected → Server.Done env r.2) := by
  intro r
  obtain ⟨p, hh⟩ := (Start.server (env := env) (cfg := cfg) now).hist hd cs
  have hc := hh.conn
  have hc : (outputs r.1).count .connected + r.2.events.count .connected = if r.2.eng.release then 1 else 0 := hc
  constructor
  · rw [hc]; split <;> decide
  · intro h
    rw [hc] at h
    refine (Server.onTrack env cfg now cs).done ?_
    cases hb : r.2.eng.release with
    | true => rfl
    | false => rw [hb] at h; exact absurd h (by decide)

/-! ## C44: what was negotiated -/

/-- **C44, server.** Once past the ClientHello, the suite is the first of the client's that is configured
and fits the key, and the SRTP profile is one the client offered; once the key exchange is sent, it names
the first configured group that the client offered, and is signed with an algorithm that the client offered if
there is one. The ServerHello sent names that suite and profile. -/
theorem server_negotiated (env : PEnv) (cfg : Cfg) (now : Nat) (cs : List Call) :
    let s := (run S12.role env (S12.start env cfg now) cs).2
    (s.st ∉ [SSt.awaitClientHello, .closed] → ClientHelloOk env s) ∧
    (s.st ∉ [SSt.awaitClientHello, .sendServerHello, .closed] → HelloSent env s) ∧
    (s.st ∉ [SSt.awaitClientHello, .sendServerHello, .sendCertificate, .sendServerKeyExchange, .closed] →
      GroupOk env s) := by
  intro s
  have h : Server.Stage env s.st s := (Server.onTrack env cfg now cs).stage
  refine ⟨fun g => h.hello ?_, fun g => h.sent ?_, fun g => h.group ?_⟩
  · exact (by intro x; cases x <;> decide : ∀ x : SSt, x ∉ [SSt.awaitClientHello, .closed] →
      1 ≤ Server.rank x) _ g
  · exact (by intro x; cases x <;> decide :
      ∀ x : SSt, x ∉ [SSt.awaitClientHello, .sendServerHello, .closed] → 2 ≤ Server.rank x) _ g
  · exact (by intro x; cases x <;> decide : ∀ x : SSt, x ∉ [SSt.awaitClientHello, .sendServerHello,
      .sendCertificate, .sendServerKeyExchange, .closed] → 4 ≤ Server.rank x) _ g

end Verif.Props.Shake12

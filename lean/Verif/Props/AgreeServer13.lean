import Verif.Props.AgreeClient13
import Verif.Props.ShakeServer13
/-!
# What a DTLS 1.3 server's parameters come from (for C63 and C64)
-/
namespace Verif.Props.Agree13
open Verif Wire Window Timer Aead M E13
open Verif.E12 (Call Event Output eventOutput outputs)

namespace Server

/-- The suite and the handshake secrets are those of the last ServerHello. -/
def Hello (env : PEnv) (s : Ses SSt) (ms : List TMsg) : Prop :=
  ∃ pre r cs g pub post shared c sv hs, ms = pre ++ ⟨2, env.serverHelloBody r cs g pub⟩ :: post ∧ (∀ m ∈ post, m.t ≠ 2) ∧
    r.length = 32 ∧ cs ∈ env.allowed ∧ s.eng.suite = some cs ∧
    env.deriveHs cs shared (flat (pre ++ [⟨2, env.serverHelloBody r cs g pub⟩])) = some (c, sv, hs) ∧
    s.clientHs = some c ∧ s.serverHs = some sv ∧ s.hsSecret = some hs

/-- A known SRTP profile, if any. -/
def Known (p : Option Nat) : Prop := ∀ x, p = some x → x ∈ [8, 7, 1]

/-- Every EncryptedExtensions says the SRTP profile. -/
def Exts (env : PEnv) (s : Ses SSt) (ms : List TMsg) : Prop :=
  ∀ m ∈ ms, m.t = 8 → m.body = env.encryptedExtensionsBody s.srtp

/-- The messages say the parameters. -/
structure Params (env : PEnv) (s : Ses SSt) (ms : List TMsg) : Prop where
  hello : Hello env s ms
  known : Known s.srtp
  exts : Exts env s ms

variable {env : PEnv} {s s' : Ses SSt} {X : Prop} {T : UInt8 → Prop} {ms ns : List TMsg}

theorem Hello.same (h1 : s'.eng.suite = s.eng.suite) (h2 : s'.clientHs = s.clientHs) (h3 : s'.serverHs = s.serverHs)
    (h4 : s'.hsSecret = s.hsSecret) (g : Hello env s ms) : Hello env s' ms := by
  unfold Hello at g ⊢
  rw [h1, h2, h3, h4]
  exact g

theorem Params.onward (h : Onward X T s s') (g : Params env s ms) : Params env s' ms := by
  refine ⟨g.hello.same h.eng.suite h.clientHs h.serverHs h.hsSecret, h.srtp ▸ g.known, ?_⟩
  have g := g.exts
  unfold Exts at g ⊢
  rw [h.srtp]
  exact g

theorem Params.add (h : ∀ m ∈ ns, m.t ≠ 2) (h8 : ∀ m ∈ ns, m.t = 8 → m.body = env.encryptedExtensionsBody s.srtp)
    (g : Params env s ms) : Params env s (ms ++ ns) := by
  obtain ⟨⟨pre, r, cs, gr, pub, post, shared, c, sv, hs, rfl, h1, rest⟩, g2, g3⟩ := g
  refine ⟨⟨pre, r, cs, gr, pub, post ++ ns, shared, c, sv, hs, by simp, fun m hm => ?_, rest⟩, g2, fun m hm => ?_⟩
  · rcases List.mem_append.mp hm with hm | hm
    · exact h1 m hm
    · exact h m hm
  · rcases List.mem_append.mp hm with hm | hm
    · exact g3 m hm
    · exact h8 m hm

/-- The whole transcript is messages that say the parameters. -/
def Whole (env : PEnv) (s : Ses SSt) : Prop := ∃ ms, s.eng.transcript = flat ms ∧ Params env s ms

theorem Whole.onward (h : Onward X Late s s') (g : Whole env s) : Whole env s' := by
  obtain ⟨ms, h1, h2⟩ := g
  obtain ⟨ns, k1, k2⟩ := h.eng.adds
  exact ⟨ms ++ ns, by rw [k1, h1, flat_append], (h2.onward h).add (fun m hm => (k2 m hm).1)
    fun m hm h8 => absurd h8 (k2 m hm).2⟩

/-- What a connected server has done. -/
structure Done (env : PEnv) (s : Ses SSt) : Prop where
  said : ∃ v, Said (Params env) env true s v
  took : ∃ v, Took (Params env) env false s v

theorem Done.onward (h : Onward True T s s') (g : Done env s) : Done env s' := by
  obtain ⟨⟨v, h1⟩, w, h2⟩ := g
  exact ⟨⟨v, h1.onward (fun _ => .onward h) h⟩, w, h2.onward (fun _ => .onward h) h⟩

/-- Before the ServerHello. -/
structure Begun (env : PEnv) (s : Ses SSt) : Prop where
  flat : Flat NotExts s.eng.transcript
  srtp : Known s.srtp
  suite : ∀ cs, s.eng.suite = some cs → cs ∈ env.allowed
  random : RandomLong s.random

theorem Begun.young (h : Young (Flat NotExts) Known (· ∈ env.allowed) s s') (g : Begun env s) : Begun env s' :=
  ⟨h.flat g.flat, h.srtp g.srtp, h.suite g.suite, h.random g.random⟩

theorem Begun.onward (h : Onward X Late s s') (g : Begun env s) : Begun env s' := by
  refine g.young ((Young.flats (St := SSt) (T := NotExts)).above (h.weak False.elim fun _ ht => ht.2))

/-- What holds in each state. -/
def Stage (env : PEnv) : SSt → Ses SSt → Prop
  | .awaitClientHello, s | .sendServerHello, s => Begun env s
  | .sendEncryptedExtensions, s | .sendCertificateRequest, s | .sendCertificate, s | .sendCertificateVerify, s
  | .sendFinished, s => Whole env s
  | .awaitCertificate, s | .awaitCertificateVerify, s | .awaitFinished, s =>
    Whole env s ∧ ∃ v, Said (Params env) env true s v
  | .awaitApplicationData, s | .halfClosedLocal, s => Done env s
  | .closed, _ => True

theorem stage_onward {st : SSt} (h : Onward True Late s s') (g : Stage env st s) : Stage env st s' := by
  have said : (Whole env s ∧ ∃ v, Said (Params env) env true s v) → Whole env s' ∧ ∃ v, Said (Params env) env true s' v := by
    rintro ⟨h1, v, h2⟩
    exact ⟨h1.onward h, v, h2.onward (fun _ => .onward h) h⟩
  cases st with
  | awaitClientHello => exact Begun.onward h g
  | sendServerHello => exact Begun.onward h g
  | sendEncryptedExtensions => exact Whole.onward h g
  | sendCertificateRequest => exact Whole.onward h g
  | sendCertificate => exact Whole.onward h g
  | sendCertificateVerify => exact Whole.onward h g
  | sendFinished => exact Whole.onward h g
  | awaitCertificate => exact said g
  | awaitCertificateVerify => exact said g
  | awaitFinished => exact said g
  | awaitApplicationData => exact Done.onward h g
  | halfClosedLocal => exact Done.onward h g
  | closed => trivial

theorem Params.shown (l : List Event) (g : Params env s ms) : Params env { s with events := l } ms :=
  ⟨g.hello, g.known, g.exts⟩

theorem Whole.shown (l : List Event) (g : Whole env s) : Whole env { s with events := l } := by
  obtain ⟨ms, h1, h2⟩ := g
  exact ⟨ms, h1, h2.shown l⟩

theorem Done.shown (l : List Event) (g : Done env s) : Done env { s with events := l } := by
  obtain ⟨⟨v, h1⟩, w, h2⟩ := g
  exact ⟨⟨v, h1.shown (fun _ h => h.shown l)⟩, w, h2.shown (fun _ h => h.shown l)⟩

theorem stage_shown {st : SSt} (l : List Event) (g : Stage env st s) : Stage env st { s with events := l } := by
  have said : ∀ {s : Ses SSt}, (Whole env s ∧ ∃ v, Said (Params env) env true s v) →
      Whole env { s with events := l } ∧ ∃ v, Said (Params env) env true { s with events := l } v :=
    fun ⟨h1, v, h2⟩ => ⟨h1.shown l, v, h2.shown (fun _ h => h.shown l)⟩
  cases st with
  | awaitClientHello => exact ⟨g.1, g.2, g.3, g.4⟩
  | sendServerHello => exact ⟨g.1, g.2, g.3, g.4⟩
  | sendEncryptedExtensions => exact Whole.shown l g
  | sendCertificateRequest => exact Whole.shown l g
  | sendCertificate => exact Whole.shown l g
  | sendCertificateVerify => exact Whole.shown l g
  | sendFinished => exact Whole.shown l g
  | awaitCertificate => exact said g
  | awaitCertificateVerify => exact said g
  | awaitFinished => exact said g
  | awaitApplicationData => exact Done.shown l g
  | halfClosedLocal => exact Done.shown l g
  | closed => trivial

/-- What a step has to give. -/
abbrev StepOk (env : PEnv) (st : SSt) (m : P SSt SSt) : Prop := ∀ s : Ses SSt, s.st = st → Stage env st s → wp m s
  (fun new s' => s'.st = s.st ∧ Stage env new s' ∧ (toTell s' = toTell s ∨
    new = .awaitApplicationData ∧ Done env s' ∧ ∃ l, toTell s' = toTell s ++ l ∧ Announced env s' l))
  (fun _ s' => s'.st = s.st ∧ Stage env s.st s' ∧ toTell s' = toTell s)

theorem at_st {st : SSt} (h : s.st = st) (g : Stage env st s') : Stage env s.st s' := h ▸ g

/-! ## ClientHello -/

/-- What holds between the sessions around the ClientHello. -/
abbrev Yg (env : PEnv) := Young (St := SSt) (Flat NotExts) Known (· ∈ env.allowed)

theorem yg : Above False NotExts (Yg env) := Young.flats

theorem replaceAll_yg {α : Type} {f : Ses SSt → P SSt α} (hf : ∀ s, VFr (Yg env) (f s)) :
    VFr (Yg env) (M.bind M.get fun s => M.bind (onEng (replaceTranscript env.toEnv s.eng.transcript.length)) fun _ => f s) := by
  intro s
  have h1 := replaceTranscript_young (env := env) (T := NotExts) (G := Known) (H := (· ∈ env.allowed))
    s.eng.transcript.length (by decide) s (by rw [List.drop_length]; exact ⟨[], rfl, nofun⟩)
  rw [bind_snd]
  show Yg env s (M.bind _ _ s).2 ∧ (M.bind _ _ s).2.st = s.st
  rw [bind_snd]
  split
  · obtain ⟨g1, g2⟩ := hf s (onEng (replaceTranscript env.toEnv s.eng.transcript.length) s).2
    exact ⟨yg.trans h1.1 g1, g2.trans h1.2⟩
  · exact h1

theorem sendRetry_yg (suite : Nat) (hs : suite ∈ env.allowed) (cookie : Bytes) (group : Option Nat) :
    VFr (Yg env) (S13.sendRetry env suite cookie group) := by
  have hf := yg (env := env)
  have h1 := setSuite_young (St := SSt) (F := Flat NotExts) (G := Known) (H := (· ∈ env.allowed)) suite hs
  have h2 := resetForHelloRetry_young (St := SSt) (F := Flat NotExts) (G := Known) (H := (· ∈ env.allowed))
  unfold S13.sendRetry
  simp only [bind_eq, pure_eq]
  refine VFr.bind hf.toOrder h1 fun _ => replaceAll_yg fun s => ?_
  vfr hf

theorem clientExtensions_yg (l : List (Nat × Bytes)) (x : S13.ChExts) : VFr (Yg env) (S13.clientExtensions env l x) := by
  have hf := yg (env := env)
  induction l generalizing x with
  | nil => exact .pure hf.toOrder _
  | cons y rest ih =>
    obtain ⟨t, d⟩ := y
    unfold S13.clientExtensions
    simp only [bind_eq]
    vfr hf
    all_goals exact ih _

theorem selectSrtp_known (l : List Nat) : Known (S13.selectSrtp l) := fun x hx => by
  have := List.find?_some hx
  simpa using this

theorem acceptClientHello_yg (suite : Nat) (hs : suite ∈ env.allowed) (x : S13.ChExts) (share : Nat × Bytes) :
    VFr (Yg env) (S13.acceptClientHello env suite x share) := by
  have hf := yg (env := env)
  have h1 := setSuite_young (St := SSt) (F := Flat NotExts) (G := Known) (H := (· ∈ env.allowed)) suite hs
  unfold S13.acceptClientHello
  simp only [bind_eq, pure_eq]
  vfr hf
  rename_i h
  refine .modify (fun s => ⟨rfl, id, fun _ => ?_, id, id⟩) fun _ => rfl
  have := selectSrtp_known (x.srtp.getD [])
  rw [h] at this
  exact this

theorem chooseShare_yg (suite : Nat) (hs : suite ∈ env.allowed) (random : Bytes) (x : S13.ChExts) :
    VFr (Yg env) (S13.chooseShare env suite random x) := by
  have hf := yg (env := env)
  have h1 := fun share => acceptClientHello_yg suite hs x share
  have h2 := fun cookie group => sendRetry_yg suite hs cookie group
  unfold S13.chooseShare
  simp only [bind_eq]
  vfr hf
  all_goals first | exact h1 _ | exact h2 _ _

theorem checkCookie_yg (len suite : Nat) (hs : suite ∈ env.allowed) (random : Bytes) (x : S13.ChExts) (s : Ses SSt)
    (ht : Flat NotExts (s.eng.transcript.take len)) :
    wp (S13.checkCookie env len suite random x) s (fun _ s' => Yg env s s' ∧ s'.st = s.st)
      (fun _ s' => Yg env s s' ∧ s'.st = s.st) := by
  have hf := yg (env := env)
  have q : Yg env s s ∧ s.st = s.st := ⟨hf.refl s, rfl⟩
  unfold S13.checkCookie
  simp only [bind_eq, pure_eq]
  split
  · simp only [wp_bind]
    refine wp_orPanic_of (fun c hc => ?_) q
    exact wp_check_of (fun _ => (chooseShare_yg suite hs random x).wp s) q
  · split
    · simp only [wp_bind]
      refine wp_orPanic_of (fun c hc => ?_) q
      rw [wp_get]
      split
      · rw [wp_bind, wp_onEng']
        exact ⟨⟨rfl, id, id, id, fun _ => ht⟩, rfl⟩
      · exact (sendRetry_yg suite hs _ _).wp s
    · exact (chooseShare_yg suite hs random x).wp s

theorem clientHello_yg (len : Nat) (ch : ClientHello) (s : Ses SSt) (ht : Flat NotExts (s.eng.transcript.take len)) :
    wp (S13.clientHello env len ch) s (fun _ s' => Yg env s s' ∧ s'.st = s.st)
      (fun _ s' => Yg env s s' ∧ s'.st = s.st) := by
  have hf := yg (env := env)
  have q : Yg env s s ∧ s.st = s.st := ⟨hf.refl s, rfl⟩
  unfold S13.clientHello
  simp only [bind_eq, wp_bind]
  refine wp_check_of (fun _ => ?_) q
  refine wp_check_of (fun h1 => ?_) q
  refine wp_check_of (fun _ => ?_) q
  refine wp_mono (Shake13.Server.clientExtensions_spec ch.exts _ s) ?_ (fun f s' h => h ▸ q)
  intro x s1 ⟨e1, hx⟩
  rw [e1, wp_get]
  refine wp_check_of (fun h2 => ?_) q
  refine wp_orFatal_of (fun suite h3 => ?_) q
  rw [wp_modify]
  have hsu : suite ∈ env.allowed := by
    have := List.find?_some h3
    simpa using this
  have e1 : Yg env s { s with sessionId := some ch.sessionId } := .mod rfl rfl rfl rfl
  refine wp_mono (checkCookie_yg len suite hsu ch.random x _ ht) ?_ ?_
  · rintro _ s' ⟨g1, g2⟩
    exact ⟨hf.trans e1 g1, g2⟩
  · rintro _ s' ⟨g1, g2⟩
    exact ⟨hf.trans e1 g1, g2⟩

theorem step_awaitClientHello : StepOk env .awaitClientHello (S13.awaitClientHello env) := by
  intro s hst hg
  have hp := fun a h => S13.step_succ env .awaitClientHello s a h
  -- the state after an accepted step is one of the first two
  suffices key : wp (S13.awaitClientHello env) s (fun _ s' => s'.st = s.st ∧ Begun env s' ∧ toTell s' = toTell s)
      (fun _ s' => s'.st = s.st ∧ Begun env s' ∧ toTell s' = toTell s) by
    refine wp_of ?_ ?_
    · intro new s' he
      have := key
      unfold wp at this
      rw [he] at this
      obtain ⟨k1, k2, k3⟩ := this
      refine ⟨k1, ?_, .inl k3⟩
      have := hp new (by rw [show S13.step env .awaitClientHello = S13.awaitClientHello env from rfl, he])
      simp only [S13.succ, List.mem_cons, List.not_mem_nil, or_false] at this
      rcases this with rfl | rfl <;> exact k2
    · intro f s' he
      have := key
      unfold wp at this
      rw [he] at this
      exact ⟨this.1, at_st hst this.2.1, this.2.2⟩
  have hg : Begun env s := hg
  unfold S13.awaitClientHello
  simp only [bind_eq, pure_eq, wp_bind, wp_get]
  rw [wp_onEng]
  refine wp_mono (nextHandshakeWith_ok env.toEnv s.autoMode mtClientHello s.eng rfl) ?_ ?_
  · rintro m e ⟨hgr, ⟨rfl, rfl⟩ | ⟨b, seq, body, rfl, -, hp, ht⟩⟩
    · exact ⟨rfl, hg, rfl⟩
    · obtain ⟨h, rfl, -⟩ := parseBody_clientHello hp
      rw [transcriptOf_bytes] at ht
      have hb : Begun env { s with eng := e } :=
        ⟨by rw [show ({ s with eng := e } : Ses SSt).eng.transcript = _ from ht]
            exact Flat.add _ _ hg.flat (fun m hm => by rw [List.mem_singleton.mp hm]; show NotExts mtClientHello; decide),
          hg.srtp, by rw [show ({ s with eng := e } : Ses SSt).eng.suite = _ from hgr.suite]; exact hg.suite, hg.random⟩
      dsimp only
      refine wp_mono (clientHello_yg s.eng.transcript.length h { s with eng := e } ?_) ?_ ?_
      · rw [show ({ s with eng := e } : Ses SSt).eng.transcript = _ from ht, List.take_left]
        exact hg.flat
      · rintro _ s' ⟨g1, g2⟩
        exact ⟨g2, hb.young g1, g1.told⟩
      · rintro _ s' ⟨g1, g2⟩
        exact ⟨g2, hb.young g1, g1.told⟩
  · rintro _ e ⟨hgr, -, ht⟩
    exact ⟨rfl, ⟨by rw [show ({ s with eng := e } : Ses SSt).eng.transcript = _ from ht]; exact hg.flat, hg.srtp,
      by rw [show ({ s with eng := e } : Ses SSt).eng.suite = _ from hgr.suite]; exact hg.suite, hg.random⟩, rfl⟩

/-! ## ServerHello and EncryptedExtensions -/

theorem sendServerHello_yg : VFr (Yg env) (S13.sendServerHello env) := by
  have hf := yg (env := env)
  have h1 := fun x => installHandshake_young (env := env) hf x
  unfold S13.sendServerHello
  simp only [bind_eq, pure_eq]
  vfr hf
  all_goals exact h1 _

theorem sendServerHello_whole (s : Ses SSt) (hg : Begun env s) :
    wp (S13.sendServerHello env) s (fun _ s' => Whole env s') (fun _ _ => True) := by
  unfold S13.sendServerHello
  simp only [bind_eq, pure_eq, wp_bind, wp_get]
  refine wp_orPanic_of (fun r hr => ?_) trivial
  split
  · trivial
  · simp only [wp_bind, wp_modify, wp_onEng']
    refine wp_orPanic_of (fun cs hcs => ?_) trivial
    split
    · trivial
    · simp only [wp_bind]
      rw [wp_onEng]
      generalize hgr : ofBe ((s.extData.drop (s.extData.length - 10)).take 2) = gr
      generalize ((s.extData.take (s.extData.length - 10)).take (ofBe (((s.extData.drop (s.extData.length - 10)).drop 6).take 4))).drop
        (ofBe (((s.extData.drop (s.extData.length - 10)).drop 2).take 4)) = pub
      have hcr := createHandshake_msg env.toEnv mtServerHello (env.serverHelloBody r cs gr pub) (flightBegin env.toEnv s.eng)
      refine wp_mono (to_wp (R := fun e' => e'.transcript = s.eng.transcript ++ flat [⟨mtServerHello, env.serverHelloBody r cs gr pub⟩] ∧
        e'.suite = s.eng.suite) ⟨hcr.1, hcr.2.2⟩) ?_ (fun _ _ _ => trivial)
      rintro _ e ⟨k1, k3⟩
      refine wp_orFatal_of (fun shared hsh => ?_) trivial
      rw [wp_modify]
      refine wp_mono (wp_and (installHandshake_ok shared _) ((installHandshake_young (env := env)
        (Young.quiet (St := SSt) (F := (· = e.transcript)) (G := Known) (H := (· ∈ env.allowed))) shared).wp _)) ?_ (fun _ _ _ => trivial)
      rintro _ s' ⟨⟨cs', c, sv, hs, e2, j1, j2, j3, rfl⟩, g1, -⟩
      have hc : cs' = cs := by
        have : some cs' = some cs := j1.symm.trans (k3.trans hcs)
        cases this; rfl
      subst hc
      obtain ⟨ms, m1, m2⟩ := hg.flat
      have htr : e2.transcript = e.transcript := g1.flat rfl
      refine ⟨ms ++ [⟨2, env.serverHelloBody r cs' gr pub⟩], ?_,
        ⟨ms, r, cs', gr, pub, [], shared, c, sv, hs, rfl, nofun, hg.random r hr, hg.suite _ hcs, ?_, ?_, rfl, rfl, rfl⟩, hg.srtp, ?_⟩
      · rw [flat_append, ← m1, ← k1]
        exact htr
      · exact j3.suite.trans (k3.trans hcs)
      · have j2 : env.deriveHs cs' shared e.transcript = some (c, sv, hs) := j2
        rw [k1, m1, ← flat_append] at j2
        exact j2
      · intro m hm h8
        rcases List.mem_append.mp hm with hm | hm
        · exact absurd h8 (m2 m hm)
        · rw [List.mem_singleton.mp hm] at h8
          exact absurd h8 (by show ¬ (2 : UInt8) = 8; decide)

theorem step_sendServerHello : StepOk env .sendServerHello (S13.sendServerHello env) := by
  intro s hst hg
  have hp := fun a h => S13.step_succ env .sendServerHello s a h
  have hy := sendServerHello_yg (env := env)
  have hw := sendServerHello_whole (env := env) s hg
  refine wp_of ?_ ?_
  · intro new s' he
    obtain ⟨h1, h2⟩ := hy s
    rw [he] at h1 h2
    have := hp new (by rw [show S13.step env .sendServerHello = S13.sendServerHello env from rfl, he])
    simp only [S13.succ, List.mem_cons, List.not_mem_nil, or_false] at this
    subst this
    unfold wp at hw
    rw [he] at hw
    exact ⟨h2, hw, .inl h1.told⟩
  · intro f s' he
    obtain ⟨h1, h2⟩ := hy s
    rw [he] at h1 h2
    exact ⟨h2, at_st hst (Begun.young h1 hg), h1.told⟩

theorem step_sendEncryptedExtensions : StepOk env .sendEncryptedExtensions (S13.sendEncryptedExtensions env) := by
  intro s hst hg
  obtain ⟨ms, hms, hpa⟩ := hg
  have key : ∀ e : Eng, e.transcript = s.eng.transcript ++ flat [⟨mtEncryptedExtensions, env.encryptedExtensionsBody s.srtp⟩] →
      e.suite = s.eng.suite → Whole env { s with eng := e } := by
    intro e h1 h2
    refine ⟨ms ++ [⟨8, env.encryptedExtensionsBody s.srtp⟩], by
      rw [flat_append, ← hms]; exact h1, ?_⟩
    have := hpa.add (ns := [⟨8, env.encryptedExtensionsBody s.srtp⟩])
      (fun m hm => by rw [List.mem_singleton.mp hm]; show (8 : UInt8) ≠ 2; decide)
      (fun m hm _ => by rw [List.mem_singleton.mp hm])
    exact ⟨this.hello.same h2 rfl rfl rfl, this.known, this.exts⟩
  unfold S13.sendEncryptedExtensions
  simp only [bind_eq, pure_eq, wp_bind, wp_get]
  rw [wp_onEng]
  have hcr := createHandshake_msg env.toEnv mtEncryptedExtensions (env.encryptedExtensionsBody s.srtp) s.eng
  refine wp_mono (to_wp (R := fun e' => e'.transcript = s.eng.transcript ++
    flat [⟨mtEncryptedExtensions, env.encryptedExtensionsBody s.srtp⟩] ∧ e'.suite = s.eng.suite) ⟨hcr.1, hcr.2.2⟩) ?_ ?_
  · rintro _ e ⟨k1, k2⟩
    refine ⟨rfl, ?_, .inl rfl⟩
    split
    · exact key e k1 k2
    · exact key e k1 k2
  · rintro _ e ⟨k1, k2⟩
    exact ⟨rfl, at_st hst (st := .sendEncryptedExtensions) (key e k1 k2), rfl⟩

/-! ## Later states -/

theorem sendCertificateRequest_vfr : VFr (Onward True Late) (S13.sendCertificateRequest env) := by
  have hf := Onward.over (St := SSt) (X := True) (T := Late)
  unfold S13.sendCertificateRequest
  simp only [bind_eq, pure_eq]
  vfr hf

theorem sendCertificate_vfr : VFr (Onward True Late) (S13.sendCertificate env) := by
  have hf := Onward.over (St := SSt) (X := True) (T := Late)
  unfold S13.sendCertificate
  simp only [bind_eq, pure_eq]
  vfr hf

theorem sendCertificateVerify_vfr : VFr (Onward True Late) (S13.sendCertificateVerify env) := by
  have hf := Onward.over (St := SSt) (X := True) (T := Late)
  have h := certificateVerifyBody_vfr (env := env) hf serverLabel
  unfold S13.sendCertificateVerify
  simp only [bind_eq, pure_eq]
  vfr hf

theorem awaitCertificate_vfr : VFr (Onward True Late) (S13.awaitCertificate env) := by
  have hf := Onward.over (St := SSt) (X := True) (T := Late)
  have h : VFr (Onward True Late) (onEng (nextHandshake env.toEnv mtCertificate) : P SSt (Option Body)) :=
    .hears hf rfl (by decide)
  unfold S13.awaitCertificate
  simp only [bind_eq, pure_eq]
  vfr hf

theorem sendFinished_vfr : VFr (Onward False Late) (S13.sendFinished env) := by
  have hf := Onward.over (St := SSt) (X := False) (T := Late)
  have h2 := fun x => computeVerify_vfr (env := env) hf x
  have h3 := installApplication_vfr (env := env) hf
  unfold S13.sendFinished
  simp only [bind_eq, pure_eq]
  vfr hf
  all_goals exact h2 _

theorem step_sendFinished : StepOk env .sendFinished (S13.sendFinished env) := by
  intro s hst hg
  have hv := (sendFinished_vfr (env := env)).wp s
  have hsucc : wp (S13.sendFinished env) s
      (fun new s' => (new = .awaitCertificate ∨ new = .awaitFinished) ∧ ∃ v, Said (Params env) env true s' v)
      (fun _ _ => True) := by
    obtain ⟨ms, hms, hpa⟩ := hg
    unfold S13.sendFinished
    simp only [bind_eq, pure_eq, wp_bind, wp_get]
    refine wp_orFatal_of (fun x hx => ?_) trivial
    refine wp_mono (computeVerify_ok x s) ?_ (fun _ _ _ => trivial)
    rintro v s1 ⟨hs1, cs, hcs, hvd⟩
    rw [hs1, wp_onEng]
    refine wp_mono (to_wp (R := fun e' => e'.transcript = s.eng.transcript ++ flat [⟨mtFinished, v⟩] ∧
      e'.exporter = s.eng.exporter ∧ e'.suite = s.eng.suite) (createHandshake_msg env.toEnv mtFinished v s.eng)) ?_
      (fun _ _ _ => trivial)
    rintro _ e1 ⟨k1, k2, k3⟩
    refine wp_mono (installApplication_ok _) ?_ (fun _ _ _ => trivial)
    rintro _ s' ⟨cs', hs, c, sv, ex, e2, j1, j2, j3, j4, j5, j6, rfl⟩
    rw [wp_onEng]
    refine wp_mono (to_wp (R := fun e' => Grow e2 e' ∧ Hushed e2 e')
      ⟨enablePeerEncryption_grow env.toEnv e2, enablePeerEncryption_hushed env.toEnv e2⟩) ?_ (fun _ _ _ => trivial)
    rintro _ e3 ⟨g1, g2⟩
    have htr : e3.transcript = flat (ms ++ [⟨20, v⟩]) := by
      rw [flat_append, ← hms, g2.transcript, j6]; exact k1
    have hsu : e3.suite = s.eng.suite := g1.suite.trans (j5.trans k3)
    have hc : cs' = cs := by
      have : some cs' = some cs := j1.symm.trans (k3.trans hcs)
      cases this; rfl
    subst hc
    refine ⟨by split <;> simp, v, ms, cs', x, ⟨hpa.hello.same hsu rfl rfl rfl, hpa.known, hpa.exts⟩, hsu.trans hcs, hx,
      by rw [← hms]; exact hvd, ?_, fun _ => ?_⟩
    · rw [show ({ s with eng := e3 } : Ses SSt).eng.transcript = _ from htr]
      exact List.prefix_rfl
    · refine ⟨cs', hs, c, sv, ex, hsu.trans hcs, j2, ?_, g2.exporter.trans j4⟩
      rw [flat_append, ← hms]
      have j3 : env.deriveApp cs' hs e1.transcript = some (c, sv, ex) := j3
      rw [k1] at j3
      exact j3
  refine wp_mono (wp_and hv hsucc) ?_ ?_
  · rintro new s' ⟨⟨g1, g2⟩, h⟩
    refine ⟨g2, ?_, .inl g1.told⟩
    rcases h with ⟨rfl | rfl, h⟩
    · exact ⟨Whole.onward g1 hg, h⟩
    · exact ⟨Whole.onward g1 hg, h⟩
  · rintro _ s' ⟨⟨g1, g2⟩, -⟩
    exact ⟨g2, at_st hst <| Whole.onward g1 hg, g1.told⟩

theorem step_awaitFinished : StepOk env .awaitFinished (S13.awaitFinished env) := by
  intro s hst hg
  -- whatever adds messages is in order
  have go : ∀ e : Eng, Adds True Late s.eng e → ({ s with eng := e } : Ses SSt).st = s.st ∧
      Stage env s.st { s with eng := e } ∧ toTell ({ s with eng := e } : Ses SSt) = toTell s := fun e h =>
    ⟨rfl, at_st hst (st := .awaitFinished) (stage_onward (.onEng h) hg), rfl⟩
  unfold S13.awaitFinished
  simp only [bind_eq, pure_eq, wp_bind, wp_get]
  refine wp_orFatal_of (fun x hx => ?_) (go _ (.refl _))
  refine wp_mono (computeVerify_ok x s) ?_ (fun _ _ h => by rw [h]; exact go _ (.refl _))
  rintro v s1 ⟨hs1, cs, hcs, hvd⟩
  rw [hs1, wp_onEng]
  refine wp_mono (wp_and (nextHandshake_ok env.toEnv mtFinished s.eng rfl) (to_wp (R := Adds True Late s.eng)
    (nextHandshakeWith_adds env.toEnv false mtFinished s.eng rfl (by decide)))) ?_ (fun _ e h => go e h.2)
  rintro m e ⟨⟨hgr, ⟨rfl, rfl⟩ | ⟨b, seq, body, rfl, -, hp, ht⟩⟩, ha⟩
  · exact ⟨rfl, hst ▸ hg, .inl rfl⟩
  · obtain ⟨cs', w, k1, rfl, k2⟩ := parseBody_finished hp
    rw [hcs] at k1
    cases k1
    dsimp only
    rw [wp_bind]
    refine wp_check_of (fun hc => ?_) (go e ha)
    have hc : w = v := by simpa using hc
    subst hc
    rw [wp_bind, wp_onEng]
    refine wp_mono (to_wp (R := fun e' => Adds True Late e e')
      (.of (advancePeerSeq_grow e) (advancePeerSeq_hushed e))) ?_ (fun _ e' h => go e' (ha.trans h))
    intro _ e1 h1
    rw [wp_bind, wp_onEng]
    refine wp_mono (to_wp (R := fun e' => Adds True Late e1 e')
      (.of (sendAckRetransmittable_grow env.toEnv e1) (sendAckRetransmittable_hushed env.toEnv e1))) ?_
      (fun _ e' h => go e' ((ha.trans h1).trans h))
    intro _ e2 h2
    rw [wp_bind, wp_onEng']
    have h3 : Adds True Late e (flightStop e2) := (h1.trans h2).trans (.same rfl rfl rfl)
    dsimp only
    generalize flightStop e2 = e3 at h3
    have hs3 : e3.suite = s.eng.suite := h3.suite.trans ha.suite
    refine wp_mono (announce_right (env := env) releaseRetaining SSt.awaitApplicationData { s with eng := e3 } ?_
      (fun _ => .same rfl rfl rfl)) ?_ (fun _ _ h => h.elim)
    · rw [show ({ s with eng := e3 } : Ses SSt).eng.suite = some cs from hs3.trans hcs]; nofun
    rintro new s' ⟨rfl, e3', l, e4, e5, e6⟩
    have ho : Onward True Late s { s with eng := e3 } := .onEng (ha.trans h3)
    have hd : Done env s' := by
      refine Done.onward e6 (Done.shown s'.events ?_)
      obtain ⟨⟨ms, hms, hpa⟩, u, hsd⟩ := hg
      refine ⟨⟨u, hsd.onward (fun _ => .onward ho) ho⟩, w, ms, cs, x, body, hpa.onward ho, hs3.trans hcs, hx, k2,
        by rw [← hms]; exact hvd, ?_, nofun⟩
      refine (prefix_onward (s := { s with eng := e }) (.onEng h3) ?_)
      rw [show ({ s with eng := e } : Ses SSt).eng.transcript = _ from ht, transcriptOf_bytes, hms, ← flat_append]
      exact List.prefix_rfl
    exact ⟨e3', hd, .inr ⟨rfl, hd, l, e4, e5⟩⟩

theorem plan : Plan S13.role env (Stage env) (Done env) where
  onward h g := stage_onward h g
  done h g := Done.onward h g
  shown l h := stage_shown l h
  doneShown l h := Done.shown l h
  closed := trivial
  half h := h
  step := by
    intro s h1 h2 h3 hg
    show wp (S13.step env s.st) s _ _
    have fr : ∀ (st : SSt), s.st = st → VFr (Onward True Late) (S13.step env st) →
        (∀ x ∈ S13.succ st, ∀ s', Stage env st s' → Stage env x s') → wp (S13.step env s.st) s
        (fun new s' => s'.st = s.st ∧ Stage env new s' ∧ (toTell s' = toTell s ∨
          new = .awaitApplicationData ∧ Done env s' ∧ ∃ l, toTell s' = toTell s ++ l ∧ Announced env s' l))
        (fun _ s' => s'.st = s.st ∧ Stage env s.st s' ∧ toTell s' = toTell s) := by
      intro st hst hv hs
      have hg : Stage env s.st s := hg
      rw [hst] at hg ⊢
      have := frame_step (Stage := Stage env) (Q := fun new s' => new = .awaitApplicationData ∧ Done env s' ∧
        ∃ l, toTell s' = toTell s ++ l ∧ Announced env s' l) hv
        (S13.step_succ env st) hst (fun s' h => stage_onward h hg) hs
      rw [hst] at this
      exact this
    have sp : ∀ (st : SSt), s.st = st → StepOk env st (S13.step env st) → wp (S13.step env s.st) s
        (fun new s' => s'.st = s.st ∧ Stage env new s' ∧ (toTell s' = toTell s ∨
          new = .awaitApplicationData ∧ Done env s' ∧ ∃ l, toTell s' = toTell s ++ l ∧ Announced env s' l))
        (fun _ s' => s'.st = s.st ∧ Stage env s.st s' ∧ toTell s' = toTell s) := by
      intro st hst hs
      have hg : Stage env s.st s := hg
      have := hs s hst (hst ▸ hg)
      rw [hst] at this ⊢
      exact this
    have hf := Onward.over (St := SSt) (X := True) (T := Late)
    cases hst : s.st with
    | awaitClientHello => rw [← hst]; exact sp _ hst step_awaitClientHello
    | sendServerHello => rw [← hst]; exact sp _ hst step_sendServerHello
    | sendEncryptedExtensions => rw [← hst]; exact sp _ hst step_sendEncryptedExtensions
    | sendCertificateRequest =>
      rw [← hst]
      refine fr _ hst sendCertificateRequest_vfr fun x hx s' h => ?_
      simp only [S13.succ, List.mem_cons, List.not_mem_nil, or_false] at hx
      rcases hx with rfl; exact h
    | sendCertificate =>
      rw [← hst]
      refine fr _ hst sendCertificate_vfr fun x hx s' h => ?_
      simp only [S13.succ, List.mem_cons, List.not_mem_nil, or_false] at hx
      rcases hx with rfl; exact h
    | sendCertificateVerify =>
      rw [← hst]
      refine fr _ hst sendCertificateVerify_vfr fun x hx s' h => ?_
      simp only [S13.succ, List.mem_cons, List.not_mem_nil, or_false] at hx
      rcases hx with rfl; exact h
    | sendFinished => rw [← hst]; exact sp _ hst step_sendFinished
    | awaitCertificate =>
      rw [← hst]
      refine fr _ hst awaitCertificate_vfr fun x hx s' h => ?_
      simp only [S13.succ, List.mem_cons, List.not_mem_nil, or_false] at hx
      rcases hx with rfl | rfl | rfl <;> exact h
    | awaitCertificateVerify =>
      rw [← hst]
      refine fr _ hst (awaitCertificateVerify_vfr hf (by decide) _ _ _) fun x hx s' h => ?_
      simp only [S13.succ, List.mem_cons, List.not_mem_nil, or_false] at hx
      rcases hx with rfl | rfl <;> exact h
    | awaitFinished => rw [← hst]; exact sp _ hst step_awaitFinished
    | awaitApplicationData => exact absurd hst h1
    | halfClosedLocal => exact absurd hst h2
    | closed => exact absurd hst h3

end Server
end Verif.Props.Agree13

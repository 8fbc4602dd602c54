import Verif.Props.ShakeServer13
import Verif.Lemmas.Wired13
import Verif.Props.Demo13
/-!
# What a DTLS 1.3 server does before a cookie came back (C43)
-/
namespace Verif.Props.Shake13
open Verif Wire Window Timer Aead M E13
open Verif.E12 (Call Output outputs)

/-- A ClientHello with the cookie for its random came. -/
def CookieOk (env : PEnv) (e : Eng) : Prop :=
  ∃ allow body seq ch d c, .taken seq mtClientHello body ∈ e.log ∧
    env.parseClientHello allow body = some ([], ch) ∧ (44, d) ∈ ch.exts ∧ env.parseCookie d = some c ∧
    env.hmac env.cookieSecret ch.random = some c

/-- A piece of a HelloRetryRequest (a ServerHello, type 2) with a cookie, in a plaintext handshake record. -/
def HelloRetry (env : PEnv) (c : UInt8) (epoch : Nat) (p : Bytes) : Prop :=
  c = 22 ∧ epoch = 0 ∧ ∃ random cookie suite group off, env.hmac env.cookieSecret random = some cookie ∧
    p.head? = some 2 ∧ p.drop 12 <+: (env.retryBody suite cookie group).drop off

/-- Nothing in the log was queued but pieces of HelloRetryRequests. -/
def OnlyRetry (env : PEnv) (l : List Ev) : Prop :=
  ∀ k c ep n p, .queued k c ep n p ∈ l → k = none ∧ HelloRetry env c ep p

theorem CookieOk.ext {env : PEnv} {e e' : Eng} (h : CookieOk env e) (hx : ∃ es, e'.log = es ++ e.log) :
    CookieOk env e' := by
  obtain ⟨a, b, n, ch, d, c, h1, h2⟩ := h
  obtain ⟨es, he⟩ := hx
  exact ⟨a, b, n, ch, d, c, by rw [he]; exact List.mem_append_right _ h1, h2⟩

/-! ## The log only grows -/

/-- The log of the second is the log of the first with later events before it. -/
def Ext (e e' : Eng) : Prop := ∃ es, e'.log = es ++ e.log

theorem Ext.same {e e' : Eng} (h : e'.log = e.log) : Ext e e' := ⟨[], h⟩

theorem Ext.frame (env : Env) : Frame env Ext where
  refl _ := .same rfl
  trans := by
    rintro a b c ⟨x, h⟩ ⟨y, g⟩
    exact ⟨y ++ x, by rw [g, h, List.append_assoc]⟩
  handshake e t b := (createHandshake_grow env t b e).log
  next e a i t := (nextHandshakeWith_grow env a i t e).log
  advance e := (advancePeerSeq_grow e).log
  flightBegin _ := .same rfl
  flightStop _ _ := .same rfl
  tick _ := .same rfl
  suite _ _ _ := .same rfl
  exporter _ _ := .same rfl
  rollback _ _ := .same rfl
  replace e n := by
    unfold replaceTranscript
    split
    · exact .same rfl
    · split <;> exact .same rfl
  ackFinal e := (sendAckRetransmittable_grow env e).log

theorem Ext.keyFrame (env : Env) : KeyFrame env Ext where
  hsKeys e a b := (installHandshakeKeys_grow env a b e).log
  appKeys e a b := (installApplicationKeys_grow env a b e).log
  enablePeer e := (enablePeerEncryption_grow env e).log
  retry _ := .same rfl
  release _ := .same rfl
  retain _ := .same rfl

theorem Ext.app (env : Env) : AppFrame env (fun _ => True) Ext where
  data e _ _ := (createCipher_grow env _ _ _ _ e).log
  asked _ := .same rfl
  keyUpdate e := (createKeyUpdate_grow env _ e).log
  auto e _ _ := (createKeyUpdate_grow env true { e with needsKu := false }).log
  newRecv e := (updateRecvKeys_grow env e).log
  ack e := (sendAck_grow env e).log

theorem step_ext {R : Role} {env : PEnv} {keying : R.St → Bool} (ho : RoleOk R env keying) (s : Ses R.St) :
    Ext s.eng (R.step env s.st s).2.eng :=
  (step_afr ho (Ext.frame env.toEnv) (Ext.keyFrame env.toEnv) (Ext.app env.toEnv) s.st s (fun _ _ => trivial)).1

/-! ## Nothing but HelloRetryRequests -/

/-- No keys, and nothing queued but pieces of HelloRetryRequests. -/
def Mute (env : PEnv) (q : TxPart) : Prop :=
  q.hsSend = none ∧ q.appSend = none ∧ q.prevSend = none ∧ OnlyRetry env q.log

/-- What is sent, or, in the case of ACKs, would be. -/
def Reply (env : PEnv) : Cfg → Nat → UInt8 → Nat → Bytes → Prop :=
  fun _ _ c ep f => HelloRetry env c ep f ∨ (c = ctAck ∧ ep ≠ 0)

theorem Mute.log {env : PEnv} {q q' : TxPart} (h : Mute env q) (h1 : q'.hsSend = q.hsSend)
    (h2 : q'.appSend = q.appSend) (h3 : q'.prevSend = q.prevSend) (h4 : OnlyRetry env q'.log) : Mute env q' :=
  ⟨h1.trans h.1, h2.trans h.2.1, h3.trans h.2.2.1, h4⟩

theorem OnlyRetry.cons {env : PEnv} {l : List Ev} (h : OnlyRetry env l) {x : Ev}
    (hx : ∀ k c ep n p, x = .queued k c ep n p → k = none ∧ HelloRetry env c ep p) : OnlyRetry env (x :: l) := by
  intro k c ep n p hm
  rcases List.mem_cons.mp hm with h1 | h1
  · exact hx _ _ _ _ _ h1.symm
  · exact h _ _ _ _ _ h1

theorem mute_core (env : PEnv) : TxCore env.toEnv (fun q => Mute env q) (Reply env) where
  plain s c f h g _ _ := by
    rw [emitPlain_q]
    refine h.log rfl rfl rfl (h.2.2.2.cons ?_)
    intro k c' ep n p he
    cases he
    exact ⟨rfl, g.elim id fun h => absurd rfl h.2⟩
  sealed s k ep h := by
    rw [sealedSt_q]
    exact h.log rfl rfl rfl (h.2.2.2.cons (by intros; contradiction))
  cipher s c ep f suite tag k ct h g _ hs _ _ := by
    have := hs.keys
    obtain ⟨h1, h2, h3, _⟩ := h
    have : s.slotKeys (s.slot ep) = none := by
      cases s.slot ep
      · exact h1
      · exact h3
      · exact h2
    simp_all
  sealDg _ h := h
  lost s h := ⟨h.1, rfl, h.2.2.1, h.2.2.2⟩
  rotate s cur new suite secret h h1 := by
    have := h.2.1
    rw [show s.q.appSend = s.appSend from rfl, h1] at this
    cases this
  ackRec s ep f h he _ := by
    refine .inr ⟨rfl, ?_⟩
    rcases he with he | he
    · omega
    · have := h.2.1
      rw [show s.q.appSend = s.appSend from rfl] at this
      rw [this] at he
      cases he.2

namespace Server
variable {env : PEnv}

/-- The engine has no keys and has queued and saved nothing but pieces of HelloRetryRequests. -/
abbrev Silent (env : PEnv) (e : Eng) : Prop := TxOk (fun q => Mute env q) (Reply env) e

theorem fragment_retry {random cookie : Bytes} (hc : env.hmac env.cookieSecret random = some cookie) (suite : Nat)
    (group : Option Nat) (q off n : Nat) :
    HelloRetry env ctHandshake 0 (fragmentBytes mtServerHello q (env.retryBody suite cookie group) off n) := by
  refine ⟨rfl, rfl, random, cookie, suite, group, off, hc, rfl, ?_⟩
  have : (fragmentBytes mtServerHello q (env.retryBody suite cookie group) off n).drop 12
      = ((env.retryBody suite cookie group).drop off).take n := by
    unfold fragmentBytes serializeHs
    rw [List.drop_append_of_le_length (by simp [serializeHsHeader]),
      List.drop_of_length_le (by simp [serializeHsHeader]), List.nil_append]
  rw [this]
  exact List.take_prefix _ _

theorem silent_advance {e : Eng} (h : Silent env e) : Silent env (advancePeerSeq e).2 := by
  unfold advancePeerSeq
  split
  · exact h
  · exact h.rx rfl rfl rfl

theorem sendRetry_silent {random cookie : Bytes} (hc : env.hmac env.cookieSecret random = some cookie) (suite : Nat)
    (group : Option Nat) (s : Ses SSt) (h : Silent env s.eng) :
    Silent env (S13.sendRetry env suite cookie group s).2.eng := by
  apply of_wp (m := S13.sendRetry env suite cookie group) (R := fun s' => Silent env s'.eng)
  unfold S13.sendRetry
  simp only [bind_eq, pure_eq, wp_bind, wp_get]
  rw [wp_setSuite, wp_onEng]
  have h1 : Silent env { s.eng with suite := some suite } := ⟨h.q, h.g, h.r⟩
  refine wp_mono (to_wp (R := Silent env) (replaceTranscript_tx h1 _)) ?_ (fun _ _ g => g)
  intro _ e he
  rw [wp_onEng', wp_onEng]
  have h2 : Silent env (flightBegin env.toEnv e) := ⟨he.q, (fun _ he => nomatch he), he.r⟩
  refine wp_mono (to_wp (R := Silent env) (createHandshake_core (mute_core env) h2 mtServerHello
    (env.retryBody suite cookie group) ?_)) ?_ (fun _ _ g => g)
  · intro u off tag seq ep _ hep _
    have : ep = 0 := hep
    subst this
    exact .inl (fragment_retry hc suite group _ _ _)
  · intro _ e2 h3
    rw [wp_onEng]
    refine wp_mono (to_wp (R := Silent env) (silent_advance h3)) ?_ (fun _ _ g => g)
    intro _ e3 h4
    rw [wp_onEng', wp_modify]
    exact ⟨h4.q, h4.g, h4.r⟩

theorem acceptClientHello_silent (suite : Nat) (x : S13.ChExts) (share : Nat × Bytes) (s : Ses SSt)
    (h : Silent env s.eng) : Silent env (S13.acceptClientHello env suite x share s).2.eng := by
  apply of_wp (m := S13.acceptClientHello env suite x share) (R := fun s' => Silent env s'.eng)
  unfold S13.acceptClientHello
  simp only [bind_eq, pure_eq, wp_bind]
  refine wp_check_of (fun _ => ?_) h
  rw [wp_drawTick]
  have h1 : Silent env { s.eng with tick := s.eng.tick + 1 } := h.rx rfl rfl rfl
  refine wp_orFatal_of (fun ours _ => ?_) h1
  rw [wp_modify]
  refine wp_orFatal_of (fun secret _ => ?_) h1
  rw [wp_modify, wp_setSuite, wp_onEng]
  have h2 : Silent env { s.eng with tick := s.eng.tick + 1, suite := some suite } := ⟨h.q, h.g, h.r⟩
  exact wp_mono (to_wp (R := Silent env) (silent_advance h2)) (fun _ _ g => g) (fun _ _ g => g)

theorem chooseShare_silent (suite : Nat) (random : Bytes) (x : S13.ChExts) (s : Ses SSt) (h : Silent env s.eng) :
    Silent env (S13.chooseShare env suite random x s).2.eng := by
  apply of_wp (R := fun s' : Ses SSt => Silent env s'.eng)
  unfold S13.chooseShare
  simp only [bind_eq]
  split
  · exact to_wp (R := fun s' : Ses SSt => Silent env s'.eng) (acceptClientHello_silent _ _ _ s h)
  · split
    · next g _ =>
      simp only [wp_bind, wp_get]
      refine wp_check_of (fun _ => ?_) h
      refine wp_orPanic_of (fun c hc => ?_) h
      exact to_wp (R := fun s' : Ses SSt => Silent env s'.eng) (sendRetry_silent hc _ _ s h)
    · exact h

theorem checkCookie_silent (len suite : Nat) (random : Bytes) (x : S13.ChExts) (s : Ses SSt)
    (h : Silent env s.eng) : Silent env (S13.checkCookie env len suite random x s).2.eng := by
  apply of_wp (R := fun s' : Ses SSt => Silent env s'.eng)
  unfold S13.checkCookie
  simp only [bind_eq, pure_eq]
  split
  · rw [wp_bind]
    refine wp_orPanic_of (fun _ _ => ?_) h
    rw [wp_bind]
    refine wp_check_of (fun _ => ?_) h
    exact to_wp (R := fun s' : Ses SSt => Silent env s'.eng) (chooseShare_silent _ _ _ s h)
  · split
    · rw [wp_bind]
      refine wp_orPanic_of (fun c hc => ?_) h
      rw [wp_bind, wp_get]
      split
      · rw [wp_bind, wp_onEng']
        exact h.rx rfl rfl rfl
      · exact to_wp (R := fun s' : Ses SSt => Silent env s'.eng) (sendRetry_silent hc _ _ s h)
    · exact to_wp (R := fun s' : Ses SSt => Silent env s'.eng) (chooseShare_silent _ _ _ s h)

/-- Waiting for the ClientHello: nothing but HelloRetryRequests is sent, and the server only goes on after
one with the right cookie. -/
theorem awaitClientHello_silent (hu : env.useCookie = true) (s : Ses SSt) (h : Silent env s.eng) :
    wp (S13.awaitClientHello env) s
      (fun new s' => Silent env s'.eng ∧ (new = .awaitClientHello ∨ CookieOk env s'.eng))
      (fun _ s' => Silent env s'.eng ∧ s'.st = s.st) := by
  have hk : wp (S13.awaitClientHello env) s (fun _ s' => s'.st = s.st) (fun _ s' => s'.st = s.st) := by
    have := (S13.awaitClientHello_fr (Ext.frame env.toEnv) (Ext.keyFrame env.toEnv).retry (env := env) s).2.2
    exact to_wp (R := fun s' : Ses SSt => s'.st = s.st) this
  suffices hm : wp (S13.awaitClientHello env) s
      (fun new s' => Silent env s'.eng ∧ (new = .awaitClientHello ∨ CookieOk env s'.eng))
      (fun _ s' => Silent env s'.eng) from
    wp_mono (wp_and hm hk) (fun _ _ h => h.1) (fun _ _ h => h)
  unfold S13.awaitClientHello
  simp only [bind_eq, pure_eq, wp_bind, wp_get]
  rw [wp_onEng]
  refine wp_mono (wp_and (nextHandshakeWith_ok env.toEnv s.autoMode mtClientHello s.eng (by decide))
    (to_wp (R := Silent env) (nextHandshakeWith_tx h s.autoMode true mtClientHello))) ?_ (fun _ _ g => g.2)
  rintro m e ⟨⟨_, ⟨rfl, rfl⟩ | ⟨bd, seq, body, rfl, hl, hp, _⟩⟩, he⟩
  · exact ⟨he, .inl rfl⟩
  · obtain ⟨ch, rfl, hx⟩ := parseBody_clientHello hp
    dsimp only
    unfold S13.clientHello
    simp only [bind_eq, wp_bind]
    refine wp_check_of (fun _ => ?_) he
    refine wp_check_of (fun _ => ?_) he
    refine wp_check_of (fun _ => ?_) he
    refine wp_mono (clientExtensions_spec ch.exts _ _) ?_ (fun f s' h => h ▸ he)
    rintro x s1 ⟨rfl, hx2⟩
    rw [wp_get]
    refine wp_check_of (fun _ => ?_) he
    refine wp_orFatal_of (fun suite _ => ?_) he
    rw [wp_modify]
    refine wp_mono (wp_and (checkCookie_ok _ suite ch.random x _)
      (to_wp (R := fun s' : Ses SSt => Silent env s'.eng) (checkCookie_silent _ suite ch.random x _ ?_)))
      ?_ (fun _ _ g => g.2)
    · exact he
    · rintro new s' ⟨⟨h1, h2⟩, h3⟩
      refine ⟨h3, ?_⟩
      rcases h1 with ⟨h1, _⟩ | ⟨h1, share, _, h4⟩
      · exact .inl h1
      · obtain ⟨c, g1, g2⟩ := h2 h1 hu
        obtain ⟨d, g3, g4⟩ := (hx2.cookie c g1).elim (fun h => nomatch h) id
        obtain ⟨es, k1⟩ := h4.log
        refine .inr ⟨_, body, seq, ch, d, c, ?_, hx, g3, g4, g2⟩
        rw [k1]
        exact List.mem_append_right _ (by rw [show _ = _ from hl]; exact List.mem_cons_self)

/-- Before the cookie the server waits for a ClientHello, or is closed, and is silent. -/
def Wary (env : PEnv) (st : SSt) (e : Eng) : Prop :=
  CookieOk env e ∨ ((st = .awaitClientHello ∨ st = .closed) ∧ Silent env e)

theorem Wary.keep {st : SSt} {e e' : Eng} (h : Wary env st e) (hx : Ext e e')
    (hs : Silent env e → Silent env e') : Wary env st e' :=
  h.imp (fun g => g.ext hx) fun g => ⟨g.1, hs g.2⟩

theorem Wary.up {e : Eng} (h : Wary env SSt.awaitApplicationData e) : CookieOk env e := by
  rcases h with h | ⟨h | h, _⟩
  · exact h
  · cases h
  · cases h

theorem wary_sent : SentOk (fun q => Mute env q) := fun _ _ _ h _ =>
  h.log rfl rfl rfl (h.2.2.2.cons (by intros; contradiction))

theorem wary (hu : env.useCookie = true) : StepOk S13.role env (Wary env) (Wary env) where
  weak _ _ h := h
  keep := (S13.roleOk env).keep
  step s h := by
    have hx := step_ext (S13.roleOk env) s
    have hk : wp (S13.role.step env s.st) s (fun _ s' => Ext s.eng s'.eng ∧ s'.st = s.st)
        (fun _ s' => Ext s.eng s'.eng ∧ s'.st = s.st) :=
      to_wp (R := fun s' : Ses SSt => Ext s.eng s'.eng ∧ s'.st = s.st) ⟨hx, (S13.roleOk env).keep s⟩
    rcases h with h | ⟨h1 | h1, h⟩
    · exact wp_mono hk (fun _ _ g => .inl (h.ext g.1))
        (fun _ _ g => ⟨g.2, .inl (h.ext g.1), fun _ => .inl (h.ext g.1)⟩)
    · rw [h1]
      refine wp_mono (awaitClientHello_silent hu s h) ?_ ?_
      · rintro new s' ⟨g1, g2 | g2⟩
        · exact .inr ⟨.inl g2, g1⟩
        · exact .inl g2
      · rintro f s' ⟨g1, g2⟩
        exact ⟨g2.trans h1, .inr ⟨.inl rfl, g1⟩, fun _ => .inr ⟨.inl rfl, g1⟩⟩
    · rw [h1]
      exact .inr ⟨.inr rfl, h⟩
  packet _ e p h := h.keep (parsePacket_grow env.toEnv p e).log fun g => parsePacket_tx (mute_core env) g p
  timeout _ e n h := h.keep (handleTimeout_grow env.toEnv n e).log fun g => handleTimeout_tx (mute_core env) g n
  tick _ _ h := h.keep (.same rfl) fun g => g.rx rfl rfl rfl
  data e _ h := .inl (h.up.ext (createCipher_grow env.toEnv _ _ _ _ e).log)
  alert e h := by
    have hg := createCipher_grow env.toEnv ctAlert e.appEpoch false [1, 0] e
    refine wp_mono (to_wp (R := fun e' => Ext e e') hg.log) ?_ ?_
    · exact fun _ _ g => .inl (h.up.ext g)
    · exact fun _ _ g => .inl (h.up.ext g)
  abort _ e h := h.elim (fun g => .inl (g.ext ⟨[], rfl⟩)) fun g =>
    .inr ⟨.inr rfl, g.2.q, (fun _ he => nomatch he), g.2.r⟩
  poll _ e b n h := h.keep (pollOutput_grow b n e).log fun g => pollOutput_tx wary_sent g b n

end Server

/-- **C43.** With cookies required, until the server has received a ClientHello carrying the cookie it
computes for the random in it, it is still waiting for a ClientHello (or closed), and every record in
every datagram it ever returned is a plaintext handshake record with a piece of a HelloRetryRequest.
Missing: that this reply is stateless, which is false, see `hello_retry_resent`. -/
theorem cookie_first_partial (env : PEnv) (cfg : Cfg) (now : Nat) (auto : Bool) (hu : env.useCookie = true)
    (cs : List Call) :
    let r := run S13.role env (S13.start env cfg now auto) cs
    CookieOk env r.2.eng ∨
    ((r.2.st = SSt.awaitClientHello ∨ r.2.st = SSt.closed) ∧
      ∃ rss : List (List Sent),
        packets (outputs r.1) = rss.map (fun rs => (rs.map Sent.wire).flatten) ∧
        ∀ x ∈ rss.flatten, HelloRetry env x.ctype 0 x.plain ∧
          x.wire = serializePlain13 x.ctype 0 x.seq (x.plain.length % 65536) x.plain) := by
  intro r
  have h : Server.Wary env r.2.st r.2.eng := run_phase' (Server.wary hu) (fun _ _ h => h) cs _
    (.inr ⟨.inl rfl, ⟨rfl, rfl, rfl, (fun _ _ _ _ _ h => nomatch h)⟩, (fun _ h => nomatch h), (by show 0 ≤ 32; decide)⟩)
  rcases h with g | ⟨g1, g2⟩
  · exact .inl g
  · obtain ⟨rss, e1, e2, e3⟩ := (Start.server now auto : Start env cfg S13.role _).wired cs
    refine .inr ⟨g1, rss, e1, fun x hx => ?_⟩
    have h1 : x.ev ∈ r.2.eng.log.filter Ev.isQueued :=
      List.mem_reverse.mp (e2.subset (List.mem_map_of_mem hx))
    have h2 : x.ev ∈ r.2.eng.log.filter Ev.isTx := List.mem_filter.mpr ⟨(List.mem_filter.mp h1).1, rfl⟩
    obtain ⟨k1, k2⟩ := g2.q.2.2.2 _ _ _ _ _ h2
    have hm := e3 x hx
    unfold Sent.Made at hm
    rw [k1] at hm
    rw [← hm.1]
    exact ⟨k2, hm.1 ▸ hm.2⟩

/-! ## Cases -/

open E13.Demo in
/-- The server is given the first ClientHello of a client only, then time passes. -/
def cookieless : List E12.Ret × Ses SSt :=
  run S13.role fullEnv (S13.start fullEnv cfg 0 false)
    ((rounds fullEnv fullEnv 1).sCalls ++ [.timeout 1, .timeout 1000000001, .poll 2000])

/-- **C43, as stated, fails.** A ClientHello without a cookie makes the server keep its HelloRetryRequest
and send it again when its timer fires, with no further datagram from the client: one datagram in, two
datagrams out. (`send_hello_retry_request` begins a flight, `src/dtls13/server.rs:1278-1347`.) -/
theorem hello_retry_resent : E13.Demo.fullEnv.useCookie = true ∧
    (packets (outputs cookieless.1)).length = 2 ∧ cookieless.2.st = .awaitClientHello := by
  decide +kernel

/-- The same server goes on once the cookie came back. -/
example : let s : Ses SSt := (E13.Demo.serverRun E13.Demo.fullEnv []).2
    s.st ≠ .awaitClientHello ∧ s.st ≠ .closed := by decide +kernel

end Verif.Props.Shake13

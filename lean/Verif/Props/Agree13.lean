import Verif.Props.Keying13
import Verif.Props.Msg13
import Verif.Props.Hybrid
/-!
# A DTLS 1.3 client and server with the same Finished agree (C63)

Whatever happened on the network: where the client accepts the Finished the server wrote, both use the same
suite, SRTP profile, handshake secrets and exporter secret, and export the same keying material; where the
server accepts the one the client wrote, both use the same suite, SRTP profile and handshake secrets.
-/
namespace Verif.Props.Agree13
open Verif Wire Window Timer Aead M E13
open Verif.E12 (Call Event Output eventOutput outputs)

/-! ## Statement -/

/-- Client and server read messages in the same way and use the same functions. -/
structure Same (envC envS : PEnv) : Prop where
  serverHello : envC.parseServerHello = envS.parseServerHello
  encryptedExtensions : envC.parseEncryptedExtensions = envS.parseEncryptedExtensions
  useSrtp : envC.parseUseSrtp = envS.parseUseSrtp
  verifyData : envC.verifyData = envS.verifyData
  deriveHs : envC.deriveHs = envS.deriveHs
  deriveApp : envC.deriveApp = envS.deriveApp
  srtpKeys : envC.srtpKeys = envS.srtpKeys

/-- What a server writes is read as it was meant: a ServerHello names the suite, EncryptedExtensions the SRTP
profile, if any. -/
structure ServerWrites (env : PEnv) : Prop where
  hello : ∀ r cs g pub h, r.length = 32 → cs ∈ env.allowed →
    env.parseServerHello (env.serverHelloBody r cs g pub) = some ([], h) → h.suite = cs
  exts : ∀ p xs, (∀ q, p = some q → q ∈ [8, 7, 1]) →
    env.parseEncryptedExtensions (env.encryptedExtensionsBody p) = some ([], xs) →
    (∀ d, (14, d) ∈ xs → ∃ q, p = some q ∧ env.parseUseSrtp d = some [q]) ∧ ∀ q, p = some q → ∃ d, (14, d) ∈ xs

/-- A Finished is its verify_data. -/
def FinishedWhole (env : PEnv) : Prop := ∀ cs body v, env.parseFinished cs body = some ([], v) → body = v

/-- The verify_data `v` of a Finished (the server's if `server`) does not come up for two secrets or
transcripts in these two sessions, and neither does its traffic secret for two shared secrets. -/
structure NoClash (env : PEnv) (server : Bool) (v : Bytes) (c : Ses CSt) (s : Ses SSt) : Prop where
  verify : ∀ cs cs' x x' t t', c.eng.suite = some cs → s.eng.suite = some cs' →
    secretOf server c = some x → secretOf server s = some x' → t <+: c.eng.transcript → t' <+: s.eng.transcript →
    env.verifyData cs x t = some v → env.verifyData cs' x' t' = some v → x = x' ∧ t = t'
  secrets : ∀ cs z z' t a a', t <+: c.eng.transcript → t <+: s.eng.transcript →
    env.deriveHs cs z t = some a → env.deriveHs cs z' t = some a' →
    c.clientHs = some a.1 → c.serverHs = some a.2.1 → c.hsSecret = some a.2.2 →
    s.clientHs = some a'.1 → s.serverHs = some a'.2.1 → s.hsSecret = some a'.2.2 →
    secretOf server c = secretOf server s → a = a'

/-- Both sides use the same parameters. -/
structure Agree (c : Ses CSt) (s : Ses SSt) : Prop where
  suite : ∃ cs, c.eng.suite = some cs ∧ s.eng.suite = some cs
  srtp : c.srtp = s.srtp
  clientHs : ∃ x, c.clientHs = some x ∧ s.clientHs = some x
  serverHs : ∃ x, c.serverHs = some x ∧ s.serverHs = some x
  hsSecret : ∃ x, c.hsSecret = some x ∧ s.hsSecret = some x

/-! ## Proof -/

/-- There is one last ServerHello. -/
theorem last_hello {p p' : List TMsg} {b b' : Bytes} {q q' : List TMsg} (h : p ++ ⟨2, b⟩ :: q = p' ++ ⟨2, b'⟩ :: q')
    (hq : ∀ m ∈ q, m.t ≠ 2) (hq' : ∀ m ∈ q', m.t ≠ 2) : p = p' ∧ b = b' := by
  rcases List.append_eq_append_iff.mp h with ⟨a, h1, h2⟩ | ⟨a, h1, h2⟩
  · cases a with
    | nil =>
      rw [List.nil_append] at h2
      cases h2
      rw [List.append_nil] at h1
      exact ⟨h1.symm, rfl⟩
    | cons m a =>
      simp only [List.cons_append, List.cons.injEq] at h2
      exact absurd rfl (hq ⟨2, b'⟩ (by rw [h2.2]; simp))
  · cases a with
    | nil =>
      rw [List.nil_append] at h2
      cases h2
      rw [List.append_nil] at h1
      exact ⟨h1, rfl⟩
    | cons m a =>
      simp only [List.cons_append, List.cons.injEq] at h2
      exact absurd rfl (hq' ⟨2, b⟩ (by rw [h2.2]; simp))

/-- Sessions whose parameters are from the same messages agree. -/
theorem params_agree {envC envS : PEnv} (hE : Same envC envS) (hS : ServerWrites envS) {c : Ses CSt} {s : Ses SSt}
    {ms : List TMsg} {b : Bool} {v : Bytes} (hc : Client.Params envC c ms) (hs : Server.Params envS s ms)
    (hn : NoClash envC b v c s) (h1 : flat ms <+: c.eng.transcript) (h2 : flat ms <+: s.eng.transcript)
    (hx : secretOf b c = secretOf b s) : Agree c s := by
  obtain ⟨pre, body, post, h, sh, x, sv, hsec, rfl, k1, k2, k3, k4, k5, k6, k7⟩ := hc.hello
  obtain ⟨pre', r, cs, g, pub, post', sh', x', sv', hsec', l0, l1, l2, l3, l4, l5, l6, l7, l8⟩ := hs.hello
  obtain ⟨rfl, rfl⟩ := last_hello l0 k1 l1
  rw [hE.serverHello] at k2
  have e := hS.hello r cs g pub h l2 l3 k2
  rw [e] at k3 k4
  rw [← hE.deriveHs] at l5
  have part : flat (pre ++ [⟨2, envS.serverHelloBody r cs g pub⟩]) <+:
      flat (pre ++ ⟨2, envS.serverHelloBody r cs g pub⟩ :: post) := by
    rw [show pre ++ ⟨2, envS.serverHelloBody r cs g pub⟩ :: post =
      (pre ++ [⟨2, envS.serverHelloBody r cs g pub⟩]) ++ post by simp, flat_append _ post]
    exact List.prefix_append _ _
  have := hn.secrets cs sh sh' _ _ _ (part.trans h1) (part.trans h2) k4 l5 k5 k6 k7 l6 l7 l8 hx
  cases this
  refine ⟨⟨cs, k3, l4⟩, ?_, ⟨x, k5, l6⟩, ⟨sv, k6, l7⟩, ⟨hsec, k7, l8⟩⟩
  cases hp : c.srtp with
  | some p =>
    obtain ⟨m, m1, m2, xs, d, ps, g1, g2, g3⟩ := hc.offered p hp
    rw [hs.exts m m1 m2, hE.encryptedExtensions] at g1
    obtain ⟨q, q1, q2⟩ := (hS.exts s.srtp xs hs.known g1).1 d g2
    rw [hE.useSrtp, q2] at g3
    simp only [Option.some.injEq, List.cons.injEq] at g3
    rw [q1, g3.1]
  | none =>
    cases hq : s.srtp with
    | none => rfl
    | some q =>
      obtain ⟨m, m1, m2, xs, g1, g2⟩ := hc.exts
      rw [hs.exts m m1 m2, hE.encryptedExtensions] at g1
      obtain ⟨e1, e2⟩ := hS.exts s.srtp xs hs.known g1
      obtain ⟨d, hd⟩ := e2 q hq
      obtain ⟨q', _, hq'⟩ := e1 d hd
      have := g2 hp d hd
      rw [hE.useSrtp, hq'] at this
      cases this

theorem before {ms : List TMsg} {m : TMsg} {t : Bytes} (h : flat (ms ++ [m]) <+: t) : flat ms <+: t := by
  rw [flat_append] at h
  exact (List.prefix_append _ _).trans h

/-- The client accepted the server's Finished. -/
theorem took_said {envC envS : PEnv} (hE : Same envC envS) (hS : ServerWrites envS) (hF : FinishedWhole envC)
    {c : Ses CSt} {s : Ses SSt} {v : Bytes} (hc : Took (Client.Params envC) envC true c v)
    (hs : Said (Server.Params envS) envS true s v) (hn : NoClash envC true v c s)
    (hl : c.eng.transcript.length < 2 ^ 24) : Agree c s ∧ ∃ x, c.eng.exporter = some x ∧ s.eng.exporter = some x := by
  obtain ⟨ms, cs, x, body, a1, a2, a3, a4, a5, a6, a7⟩ := hc
  obtain ⟨ns, cs', x', b1, b2, b3, b4, b5, b6⟩ := hs
  obtain rfl := hF cs body v a4
  rw [← hE.verifyData] at b4
  obtain ⟨rfl, ht⟩ := hn.verify cs cs' x x' _ _ a2 b2 a3 b3 (before a6) (before b5) a5 b4
  obtain rfl := flat_inj ms ns ht (Nat.lt_of_le_of_lt (before a6).length_le hl)
  have ha := params_agree hE hS a1 b1 hn (before a6) (before b5) (a3.trans b3.symm)
  refine ⟨ha, ?_⟩
  obtain ⟨c1, h1, p1, q1, e1, x1, x2, x3, x4⟩ := a7 rfl
  obtain ⟨c2, h2, p2, q2, e2, y1, y2, y3, y4⟩ := b6 rfl
  obtain ⟨_, z1, z2⟩ := ha.suite
  obtain ⟨_, z3, z4⟩ := ha.hsSecret
  rw [x1] at z1; cases z1
  rw [y1] at z2; cases z2
  rw [x2] at z3; cases z3
  rw [y2] at z4; cases z4
  rw [hE.deriveApp, y3] at x3
  cases x3
  exact ⟨_, x4, y4⟩

/-- The server accepted the client's Finished. -/
theorem said_took {envC envS : PEnv} (hE : Same envC envS) (hS : ServerWrites envS)
    {c : Ses CSt} {s : Ses SSt} {v : Bytes} (hc : Said (Client.Params envC) envC false c v)
    (hs : Took (Server.Params envS) envS false s v) (hn : NoClash envC false v c s)
    (hl : c.eng.transcript.length < 2 ^ 24) : Agree c s := by
  obtain ⟨ms, cs, x, a1, a2, a3, a5, a6, a7⟩ := hc
  obtain ⟨ns, cs', x', body, b1, b2, b3, _, b4, b5, b6⟩ := hs
  rw [← hE.verifyData] at b4
  obtain ⟨rfl, ht⟩ := hn.verify cs cs' x x' _ _ a2 b2 a3 b3 (before a6) (before b5) a5 b4
  obtain rfl := flat_inj ms ns ht (Nat.lt_of_le_of_lt (before a6).length_le hl)
  exact params_agree hE hS a1 b1 hn (before a6) (before b5) (a3.trans b3.symm)

/-- Where suite, profile and exporter secret are the same, both would export the same. -/
theorem same_keys {envC envS : PEnv} (hE : Same envC envS) {c : Ses CSt} {s : Ses SSt} (h : Agree c s)
    (hx : ∃ x, c.eng.exporter = some x ∧ s.eng.exporter = some x) (km : Bytes) (p : Nat) :
    KmOf envC c km p ↔ KmOf envS s km p := by
  obtain ⟨cs, a1, a2⟩ := h.suite
  obtain ⟨x, b1, b2⟩ := hx
  unfold KmOf
  rw [a1, a2, b1, b2, h.srtp, hE.srtpKeys]

/-- There is one keying material. -/
theorem kmOf_unique {σ : Type} {env : PEnv} {s : Ses σ} {km km' : Bytes} {p p' : Nat}
    (h : KmOf env s km p) (h' : KmOf env s km' p') : km = km' ∧ p = p' := by
  obtain ⟨cs, m, a1, a2, a3, a4⟩ := h
  obtain ⟨cs', m', b1, b2, b3, b4⟩ := h'
  rw [a1] at b1; cases b1
  rw [a2] at b2; cases b2
  rw [a3] at b3; cases b3
  rw [a4] at b4; cases b4
  exact ⟨rfl, rfl⟩

/-! ## Whole connections -/

/-- **C63.** A client and a server, each with any calls and datagrams whatsoever. Where the client accepted a
Finished with the verify_data the server sent, and that value does not come up by a clash, both use the same
suite, SRTP profile, handshake secrets and exporter secret. What Connected and keying material the two report
to the application is then the same, where both have reported Connected. -/
theorem agreement_client {envC envS : PEnv} {cfgC cfgS : Cfg} {c0 : Ses CSt} (hc0 : Begins envC cfgC c0) (now : Nat)
    (auto : Bool) (hE : Same envC envS) (hS : ServerWrites envS) (hF : FinishedWhole envC)
    (hrc : ∀ n, (envC.rand n 32).length = 32) (hrs : ∀ n, (envS.rand n 32).length = 32)
    (csC csS : List Call) :
    let c := run C13.role envC c0 csC
    let s := run S13.role envS (S13.start envS cfgS now auto) csS
    c.2.eng.transcript.length < 2 ^ 24 →
    (∃ v, Took (Client.Params envC) envC true c.2 v ∧ Said (Server.Params envS) envS true s.2 v ∧
        NoClash envC true v c.2 s.2) →
    Agree c.2 s.2 ∧ (∃ x, c.2.eng.exporter = some x ∧ s.2.eng.exporter = some x) ∧
    (story (outputs c.1) c.2 ≠ [] → story (outputs s.1) s.2 ≠ [] →
      story (outputs c.1) c.2 = story (outputs s.1) s.2) := by
  intro c s hl ⟨v, h1, h2, h3⟩
  obtain ⟨ha, hx⟩ := took_said hE hS hF h1 h2 h3 hl
  refine ⟨ha, hx, fun g1 g2 => ?_⟩
  have k1 := ((client_keying hc0 hrc csC).resolve_left g1).1
  have k2 := ((server_keying cfgS now auto hrs csS).resolve_left g2).1
  rcases k1 with ⟨k1, n1⟩ | ⟨km, p, k1, n1⟩ <;> rcases k2 with ⟨k2, n2⟩ | ⟨km', p', k2, n2⟩
  · exact k1.trans k2.symm
  · exact absurd ((same_keys hE ha hx km' p').mpr n2) (n1 km' p')
  · exact absurd ((same_keys hE ha hx km p).mp n1) (n2 km p)
  · have n1 := (same_keys hE ha hx km p).mp n1
    obtain ⟨rfl, rfl⟩ := kmOf_unique n1 n2
    exact k1.trans k2.symm

/-- **C63.** Where the server accepted a Finished with the verify_data the client sent, and that value does
not come up by a clash, both use the same suite, SRTP profile and handshake secrets. -/
theorem agreement_server {envC envS : PEnv} {cfgC cfgS : Cfg} {c0 : Ses CSt} (_ : Begins envC cfgC c0) (now : Nat)
    (auto : Bool) (hE : Same envC envS) (hS : ServerWrites envS) (csC csS : List Call) :
    let c := run C13.role envC c0 csC
    let s := run S13.role envS (S13.start envS cfgS now auto) csS
    c.2.eng.transcript.length < 2 ^ 24 →
    (∃ v, Said (Client.Params envC) envC false c.2 v ∧ Took (Server.Params envS) envS false s.2 v ∧
        NoClash envC false v c.2 s.2) →
    Agree c.2 s.2 := by
  intro c s hl ⟨v, h1, h2, h3⟩
  exact said_took hE hS h1 h2 h3 hl

/-- Who reported Connected has sent a Finished and accepted one. -/
theorem client_finished {env : PEnv} {cfg : Cfg} {s0 : Ses CSt} (h : Begins env cfg s0)
    (hr : ∀ n, (env.rand n 32).length = 32) (cs : List Call)
    (hc : .connected ∈ outputs (run C13.role env s0 cs).1) : Client.Done env (run C13.role env s0 cs).2 := by
  rcases (h.right hr cs).2 with g | ⟨_, g, _⟩
  · have : Event.connected ∈ story (outputs (run C13.role env s0 cs).1) (run C13.role env s0 cs).2 :=
      List.mem_append_left _ (List.mem_filterMap.mpr ⟨_, hc, rfl⟩)
    have g : story (outputs (run C13.role env s0 cs).1) (run C13.role env s0 cs).2 = [] := g
    rw [g] at this
    cases this
  · exact g

theorem server_finished {env : PEnv} (cfg : Cfg) (now : Nat) (auto : Bool)
    (hr : ∀ n, (env.rand n 32).length = 32) (cs : List Call)
    (hc : .connected ∈ outputs (run S13.role env (S13.start env cfg now auto) cs).1) :
    Server.Done env (run S13.role env (S13.start env cfg now auto) cs).2 := by
  rcases (server_right cfg now auto hr cs).2 with g | ⟨_, g, _⟩
  · have : Event.connected ∈ story (outputs (run S13.role env (S13.start env cfg now auto) cs).1)
        (run S13.role env (S13.start env cfg now auto) cs).2 :=
      List.mem_append_left _ (List.mem_filterMap.mpr ⟨_, hc, rfl⟩)
    have g : story (outputs (run S13.role env (S13.start env cfg now auto) cs).1)
        (run S13.role env (S13.start env cfg now auto) cs).2 = [] := g
    rw [g] at this
    cases this
  · exact g

/-- **C63.** Both reported Connected, and the client accepts a Finished only if the server sent it: then they
agree, and reported the same. -/
theorem connected_agree {envC envS : PEnv} {cfgC cfgS : Cfg} {c0 : Ses CSt} (hc0 : Begins envC cfgC c0) (now : Nat)
    (auto : Bool) (hE : Same envC envS) (hS : ServerWrites envS) (hF : FinishedWhole envC)
    (hrc : ∀ n, (envC.rand n 32).length = 32) (hrs : ∀ n, (envS.rand n 32).length = 32)
    (csC csS : List Call) :
    let c := run C13.role envC c0 csC
    let s := run S13.role envS (S13.start envS cfgS now auto) csS
    c.2.eng.transcript.length < 2 ^ 24 →
    .connected ∈ outputs c.1 → .connected ∈ outputs s.1 →
    (∀ v, Took (Client.Params envC) envC true c.2 v → Said (Server.Params envS) envS true s.2 v ∧
      NoClash envC true v c.2 s.2) →
    Agree c.2 s.2 ∧ (∃ x, c.2.eng.exporter = some x ∧ s.2.eng.exporter = some x) ∧
    story (outputs c.1) c.2 = story (outputs s.1) s.2 := by
  intro c s hl h1 h2 hv
  obtain ⟨v, ht⟩ := (client_finished hc0 hrc csC h1).took
  obtain ⟨ha, hx, hk⟩ := agreement_client hc0 now auto hE hS hF hrc hrs csC csS hl ⟨v, ht, hv v ht⟩
  have ne : ∀ {St : Type} (os : List Output) (s : Ses St), .connected ∈ os → story os s ≠ [] := by
    intro St os s h g
    have : Event.connected ∈ story os s := List.mem_append_left _ (List.mem_filterMap.mpr ⟨_, h, rfl⟩)
    rw [g] at this
    cases this
  exact ⟨ha, hx, hk (ne _ _ h1) (ne _ _ h2)⟩

/-- **C63.** Both reported Connected, and the server accepts a Finished only if the client sent it: then they
agree. -/
theorem connected_agree_server {envC envS : PEnv} {cfgC cfgS : Cfg} {c0 : Ses CSt} (hc0 : Begins envC cfgC c0)
    (now : Nat) (auto : Bool) (hE : Same envC envS) (hS : ServerWrites envS)
    (hrs : ∀ n, (envS.rand n 32).length = 32) (csC csS : List Call) :
    let c := run C13.role envC c0 csC
    let s := run S13.role envS (S13.start envS cfgS now auto) csS
    c.2.eng.transcript.length < 2 ^ 24 → .connected ∈ outputs s.1 →
    (∀ v, Took (Server.Params envS) envS false s.2 v → Said (Client.Params envC) envC false c.2 v ∧
      NoClash envC false v c.2 s.2) →
    Agree c.2 s.2 := by
  intro c s hl h2 hv
  obtain ⟨v, ht⟩ := (server_finished cfgS now auto hrs csS h2).took
  exact agreement_server hc0 now auto hE hS csC csS hl ⟨v, (hv v ht).1, ht, (hv v ht).2⟩

/-! ## The codec of the code -/

open Verif.Msg13 Verif.Msg in
/-- Whatever follows the suite in a ServerHello. -/
theorem names_suite (v : Nat) (r : Bytes) (cs : Nat) (x : Bytes) (hr : r.length = 32) (hcs : cs < 65536) (rest : Bytes)
    (h : ServerHello)
    (hp : opt (parseServerHello (beBytes 2 v ++ (r ++ (putVec 1 [] ++ (beBytes 2 cs ++ x))))) = some (rest, h)) :
    h.suite = cs := by
  cases hq : parseServerHello (beBytes 2 v ++ (r ++ (putVec 1 [] ++ (beBytes 2 cs ++ x)))) with
  | ok rest' h' =>
    rw [hq] at hp
    cases hp
    unfold parseServerHello at hq
    rw [beNat_append _ _ _ (beBytes_length 2 v)] at hq
    simp only [PRes.bind_ok'] at hq
    rw [take_append _ _ _ hr] at hq
    simp only [PRes.bind_ok'] at hq
    rw [idParse_putVec 32 _ _ (by decide) (by decide)] at hq
    simp only [PRes.bind_ok'] at hq
    rw [beNat_beBytes _ _ _ (by omega)] at hq
    simp only [PRes.bind_ok'] at hq
    obtain ⟨_, _, _, hq⟩ := bind_ok hq
    obtain ⟨_, _, _, hq⟩ := bind_ok hq
    cases hq
    rfl
  | _ => rw [hq] at hp; cases hp

/-- With the codec of the code, the server's messages say what they were written with. -/
theorem codec_serverWrites (env : PEnv) (mtu : Nat) (cert : Bytes) (ha : ∀ cs ∈ env.allowed, cs < 65536) :
    ServerWrites (Msg13.codec env mtu cert) where
  hello r cs g pub h hr hcs hp := by
    have hp : Msg.opt (Msg13.parseServerHello (Msg13.putServerHello (Msg13.serverHello r cs g pub))) = some ([], h) := hp
    unfold Msg13.putServerHello Msg13.serverHello at hp
    simp only [List.append_assoc] at hp
    exact names_suite _ _ _ _ hr (ha cs hcs) _ h hp
  exts p xs hk hp := by
    obtain ⟨d, h1, h2⟩ := Msg13.enc_exts_sent env mtu cert false none p (fun q hq => by
      have := hk q hq; simp at this ⊢; omega)
    have h1 : ((Msg13.codec env mtu cert).parseEncryptedExtensions ((Msg13.codec env mtu cert).encryptedExtensionsBody p)).map
      (fun x => (x.1, Body.encryptedExtensions x.2)) = _ := h1
    rw [hp] at h1
    simp only [Option.map_some, Option.some.injEq, Prod.mk.injEq, Body.encryptedExtensions.injEq, true_and] at h1
    subst h1
    cases p with
    | none => exact ⟨nofun, nofun⟩
    | some q =>
      refine ⟨fun d' hd => ?_, fun _ _ => ⟨d, List.mem_singleton.mpr rfl⟩⟩
      have := List.mem_singleton.mp hd
      cases this
      exact ⟨q, rfl, h2 q rfl⟩

theorem codec_finishedWhole (env : PEnv) (mtu : Nat) (cert : Bytes) : FinishedWhole (Msg13.codec env mtu cert) := by
  intro cs body v hp
  have hp : Msg.opt (take (Msg13.hashLen cs) body) = some ([], v) := hp
  cases hq : take (Msg13.hashLen cs) body with
  | ok rest' h' =>
    rw [hq] at hp
    cases hp
    have := (take_ok hq).1
    rwa [List.append_nil] at this
  | _ => rw [hq] at hp; cases hp

/-- The client that an auto-sensing client becomes begins in such a way. -/
theorem hybrid_begins (h : Dtls.Hybrid) (penv : PEnv) (cfg : Cfg) (now : Nat) :
    Begins penv cfg (C13.startHybrid penv cfg h.random h.transcript h.kx now) := by
  have hf : h.transcript = flat [⟨1, h.body⟩] := by
    rw [flat_one]
    rfl
  rw [hf]
  exact .hybrid _ _ _ _

/-! ## Case -/

open Verif.E12.Demo (sum) in
/-- The toy environment, with SRTP offered, and a checksum that counts. -/
def srtpEnv : PEnv :=
  { Demo.plainEnv with
    parseClientHello := fun _ b =>
      (Demo.parseCh [29] [0x1301] b).map fun x => (x.1, { x.2 with exts := x.2.exts ++ [(14, [8, 7, 1])] })
    verifyData := fun _ s t => some [sum s, sum t, UInt8.ofNat t.length] }

theorem srtp_serverWrites : ServerWrites srtpEnv where
  hello r cs g pub h _ hcs hp := by
    have hcs : cs ∈ [0x1301] := hcs
    rw [List.mem_singleton] at hcs
    subst hcs
    cases hp
    rfl
  exts p xs hk hp := by
    cases p with
    | none => cases hp; exact ⟨nofun, nofun⟩
    | some q =>
      have := hk q rfl
      simp only [List.mem_cons, List.not_mem_nil, or_false] at this
      rcases this with rfl | rfl | rfl <;> cases hp <;>
        exact ⟨fun d hd => by cases List.mem_singleton.mp hd; exact ⟨_, rfl, rfl⟩,
          fun _ _ => ⟨_, List.mem_singleton.mpr rfl⟩⟩

theorem srtp_finishedWhole : FinishedWhole srtpEnv := by
  intro cs body v h
  cases h
  rfl

/-- A whole handshake with SRTP: both report Connected and the same keying material, for the profile of the
server's choice. -/
theorem srtp_case :
    let c := Demo.clientRun srtpEnv []
    let s := Demo.serverRun srtpEnv []
    .connected ∈ outputs c.1 ∧ .connected ∈ outputs s.1 ∧ c.2.srtp = some 8 ∧ s.2.srtp = some 8 ∧
    c.2.eng.transcript.length < 2 ^ 24 ∧ c.2.eng.transcript = s.2.eng.transcript ∧
    story (outputs c.1) c.2 = story (outputs s.1) s.2 ∧ (story (outputs c.1) c.2).length = 2 := by decide +kernel

/-- The messages before the server's Finished in that handshake, and the two verify_data. -/
def caseMsgs : List TMsg :=
  [⟨1, 32 :: (beBytes 32 2 ++ [29, 0, 5])⟩, ⟨2, [19, 1, 29, 32] ++ beBytes 32 2 ++ [5]⟩, ⟨8, [8]⟩, ⟨11, [0, 77, 78]⟩,
   ⟨15, [4, 3, 0, 1, 141]⟩]
def caseVerify : Bytes := [17, 82, 102]
def caseReply : Bytes := [16, 50, 109]
def caseAll : Bytes := flat (caseMsgs ++ [⟨20, caseVerify⟩] ++ [⟨20, caseReply⟩])
def caseHello : ServerHello :=
  { version := Wire.verDtls12, random := beBytes 32 2, sessionId := [], suite := 0x1301, compression := 0,
    exts := some [(43, []), (51, [29, 5])] }

/-- What the two have in common there. -/
def CaseState {σ : Type} (s : Ses σ) : Prop :=
  s.srtp = some 8 ∧ s.eng.suite = some 0x1301 ∧ s.clientHs = some [1, 25, 239] ∧ s.serverHs = some [2, 25, 239] ∧
  s.hsSecret = some [3, 25, 239] ∧ s.eng.exporter = some [7, 3, 25, 239, 50] ∧ s.eng.transcript = caseAll

theorem case_client : CaseState (Demo.clientRun srtpEnv []).2 := by unfold CaseState; decide +kernel
theorem case_server : CaseState (Demo.serverRun srtpEnv []).2 := by unfold CaseState; decide +kernel

theorem case_verify : srtpEnv.verifyData 0x1301 [2, 25, 239] (flat caseMsgs) = some caseVerify ∧
    srtpEnv.verifyData 0x1301 [1, 25, 239] (flat (caseMsgs ++ [⟨20, caseVerify⟩])) = some caseReply ∧
    srtpEnv.parseServerHello ([19, 1, 29, 32] ++ beBytes 32 2 ++ [5]) = some ([], caseHello) ∧
    srtpEnv.deriveHs 0x1301 [25] (flat (caseMsgs.take 2)) = some ([1, 25, 239], [2, 25, 239], [3, 25, 239]) ∧
    srtpEnv.deriveApp 0x1301 [3, 25, 239] (flat (caseMsgs ++ [⟨20, caseVerify⟩])) =
      some ([4, 3, 25, 239, 50], [6, 3, 25, 239, 50], [7, 3, 25, 239, 50]) ∧
    flat (caseMsgs ++ [⟨20, caseVerify⟩]) <+: caseAll ∧
    srtpEnv.serverHelloBody (beBytes 32 2) 0x1301 29 [5] = [19, 1, 29, 32] ++ beBytes 32 2 ++ [5] := by decide +kernel

theorem case_keyed {σ : Type} {s : Ses σ} (h : CaseState s) : Keyed srtpEnv s (flat (caseMsgs ++ [⟨20, caseVerify⟩])) :=
  ⟨_, _, _, _, _, h.2.1, h.2.2.2.2.1, case_verify.2.2.2.2.1, h.2.2.2.2.2.1⟩

theorem case_clientParams {s : Ses CSt} (h : CaseState s) (more : List TMsg) (hm : ∀ m ∈ more, m.t ≠ 2) :
    Client.Params srtpEnv s (caseMsgs ++ more) := by
  obtain ⟨h1, h2, h3, h4, h5, h6, h7⟩ := h
  obtain ⟨v1, v2, v3, v4, _⟩ := case_verify
  refine ⟨⟨[_], _, _ ++ more, caseHello, _, _, _, _, rfl, ?_, v3, h2, v4, h3, h4, h5⟩, ?_, ?_⟩
  · intro m hx
    rcases List.mem_append.mp hx with hx | hx
    · exact (by decide : ∀ m ∈ ([⟨8, [8]⟩, ⟨11, [0, 77, 78]⟩, ⟨15, [4, 3, 0, 1, 141]⟩] : List TMsg), m.t ≠ 2) m hx
    · exact hm m hx
  · intro p hp
    rw [h1] at hp
    cases hp
    exact ⟨⟨8, [8]⟩, by simp [caseMsgs], rfl, [(14, [8])], [8], [], rfl, by simp, rfl⟩
  · exact ⟨⟨8, [8]⟩, by simp [caseMsgs], rfl, [(14, [8])], rfl, fun g => by rw [h1] at g; cases g⟩

theorem case_serverParams {s : Ses SSt} (h : CaseState s) (more : List TMsg) (hm : ∀ m ∈ more, m.t ≠ 2)
    (hm' : ∀ m ∈ more, m.t ≠ 8) : Server.Params srtpEnv s (caseMsgs ++ more) := by
  obtain ⟨h1, h2, h3, h4, h5, h6, h7⟩ := h
  obtain ⟨v1, v2, v3, v4, _, _, v5⟩ := case_verify
  refine ⟨⟨[_], beBytes 32 2, 0x1301, 29, [5], _ ++ more, [25], _, _, _, by rw [v5]; rfl, ?_, beBytes_length 32 2,
    by decide, h2, by rw [v5]; exact v4, h3, h4, h5⟩, ?_, ?_⟩
  · intro m hx
    rcases List.mem_append.mp hx with hx | hx
    · exact (by decide : ∀ m ∈ ([⟨8, [8]⟩, ⟨11, [0, 77, 78]⟩, ⟨15, [4, 3, 0, 1, 141]⟩] : List TMsg), m.t ≠ 2) m hx
    · exact hm m hx
  · intro p hp
    rw [h1] at hp
    cases hp
    decide
  · intro m hx ht
    rcases List.mem_append.mp hx with hx | hx
    · simp only [caseMsgs, List.mem_cons, List.not_mem_nil, or_false] at hx
      rcases hx with rfl | rfl | rfl | rfl | rfl <;> first | (cases ht; done) | skip
      rw [h1]
      rfl
    · exact absurd ht (hm' m hx)

theorem case_took {s : Ses CSt} (h : CaseState s) : Took (Client.Params srtpEnv) srtpEnv true s caseVerify :=
  ⟨caseMsgs, 0x1301, _, caseVerify, by
    have := case_clientParams h [] (fun _ h => absurd h List.not_mem_nil)
    rwa [List.append_nil] at this, h.2.1, h.2.2.2.1, rfl, case_verify.1,
    by rw [h.2.2.2.2.2.2]; exact case_verify.2.2.2.2.2.1, fun _ => case_keyed h⟩

theorem case_said {s : Ses SSt} (h : CaseState s) : Said (Server.Params srtpEnv) srtpEnv true s caseVerify :=
  ⟨caseMsgs, 0x1301, _, by
    have := case_serverParams h [] (fun _ h => absurd h List.not_mem_nil) (fun _ h => absurd h List.not_mem_nil)
    rwa [List.append_nil] at this, h.2.1, h.2.2.2.1, case_verify.1,
    by rw [h.2.2.2.2.2.2]; exact case_verify.2.2.2.2.2.1, fun _ => case_keyed h⟩

theorem case_reply {s : Ses CSt} (h : CaseState s) : Said (Client.Params srtpEnv) srtpEnv false s caseReply := by
  have hp := case_clientParams h [⟨20, caseVerify⟩] (fun _ h => by cases List.mem_singleton.mp h; decide)
  refine ⟨caseMsgs ++ [⟨20, caseVerify⟩], 0x1301, [1, 25, 239], hp, h.2.1, h.2.2.1, case_verify.2.1, ?_, fun h => by cases h⟩
  rw [h.2.2.2.2.2.2]
  unfold caseAll
  exact List.prefix_refl _

theorem case_heard {s : Ses SSt} (h : CaseState s) : Took (Server.Params srtpEnv) srtpEnv false s caseReply := by
  have hp := case_serverParams h [⟨20, caseVerify⟩] (fun _ h => by cases List.mem_singleton.mp h; decide)
    (fun _ h => by cases List.mem_singleton.mp h; decide)
  refine ⟨caseMsgs ++ [⟨20, caseVerify⟩], 0x1301, [1, 25, 239], caseReply, hp, h.2.1, h.2.2.1, rfl, case_verify.2.1, ?_,
    fun h => by cases h⟩
  rw [h.2.2.2.2.2.2]
  unfold caseAll
  exact List.prefix_refl _

/-- No clash there either: of all prefixes of the transcript, one has that checksum. -/
theorem case_noClash (b : Bool) {c : Ses CSt} {s : Ses SSt} (hc : CaseState c) (hs : CaseState s) :
    NoClash srtpEnv b (if b then caseVerify else caseReply) c s := by
  obtain ⟨h1, h2, h3, h4, h5, h6, h7⟩ := hc
  obtain ⟨g1, g2, g3, g4, g5, g6, g7⟩ := hs
  have hx : secretOf b c = secretOf b s := by
    cases b
    · exact h3.trans g3.symm
    · exact h4.trans g4.symm
  have key : ∀ b : Bool, ∀ n < 130, ∀ k < 130,
      srtpEnv.verifyData 0x1301 (if b then [2, 25, 239] else [1, 25, 239]) (caseAll.take n) = some (if b then caseVerify else caseReply) →
      srtpEnv.verifyData 0x1301 (if b then [2, 25, 239] else [1, 25, 239]) (caseAll.take k) = some (if b then caseVerify else caseReply) →
      caseAll.take n = caseAll.take k := by
    have hl : ∀ b : Bool, ∀ n < 130,
        srtpEnv.verifyData 0x1301 (if b then [2, 25, 239] else [1, 25, 239]) (caseAll.take n) = some (if b then caseVerify else caseReply) →
        caseAll.take n = caseAll.take (if b then 102 else 109) := by decide +kernel
    intro b n hn k hk h1 h2
    exact (hl b n hn h1).trans (hl b k hk h2).symm
  have hlen : caseAll.length < 130 := by decide +kernel
  constructor
  · intro cs cs' x x' t t' e1 e2 k1 k2 p1 p2 q1 q2
    rw [hx] at k1
    rw [k1] at k2
    cases k2
    refine ⟨rfl, ?_⟩
    rw [h2] at e1
    rw [g2] at e2
    cases e1
    cases e2
    have : x = if b then [2, 25, 239] else [1, 25, 239] := by
      cases b
      · rw [show secretOf false s = s.clientHs from rfl, g3] at k1
        cases k1
        rfl
      · rw [show secretOf true s = s.serverHs from rfl, g4] at k1
        cases k1
        rfl
    subst this
    rw [h7] at p1
    rw [g7] at p2
    rw [List.prefix_iff_eq_take.mp p1] at q1 ⊢
    rw [List.prefix_iff_eq_take.mp p2] at q2 ⊢
    exact key b _ (Nat.lt_of_le_of_lt p1.length_le hlen) _ (Nat.lt_of_le_of_lt p2.length_le hlen) q1 q2
  · intro cs z z' t a a' _ _ _ _ e1 e2 e3 k1 k2 k3 _
    obtain ⟨a1, a2, a3⟩ := a
    obtain ⟨b1, b2, b3⟩ := a'
    rw [h3] at e1; rw [h4] at e2; rw [h5] at e3
    rw [g3] at k1; rw [g4] at k2; rw [g5] at k3
    simp only [Option.some.injEq] at e1 e2 e3 k1 k2 k3
    rw [← e1, ← e2, ← e3, ← k1, ← k2, ← k3]

/-- The hypotheses of `agreement_client` and of `agreement_server` are met. -/
example : Agree (Demo.clientRun srtpEnv []).2 (Demo.serverRun srtpEnv []).2 ∧
    Agree (Demo.clientRun srtpEnv []).2 (Demo.serverRun srtpEnv []).2 := by
  have h := srtp_case.2.2.2.2.1
  have hc := case_client
  have hs := case_server
  unfold Demo.clientRun Demo.serverRun at *
  generalize Demo.clientCalls srtpEnv ++ [] = cs at *
  generalize Demo.serverCalls srtpEnv ++ [] = ss at *
  exact ⟨(agreement_client (.plain 0) 0 false ⟨rfl, rfl, rfl, rfl, rfl, rfl, rfl⟩ srtp_serverWrites srtp_finishedWhole
    (fun n => beBytes_length 32 n) (fun n => beBytes_length 32 n) cs ss h
    ⟨caseVerify, case_took hc, case_said hs, case_noClash true hc hs⟩).1,
    agreement_server (.plain 0) 0 false ⟨rfl, rfl, rfl, rfl, rfl, rfl, rfl⟩ srtp_serverWrites cs ss h
    ⟨caseReply, case_reply hc, case_heard hs, case_noClash false hc hs⟩⟩

/-- One Finished was accepted by each. -/
theorem case_one (b : Bool) {σ : Type} {P : Ses σ → List TMsg → Prop} {s : Ses σ} (h : CaseState s) {v : Bytes}
    (ht : Took P srtpEnv b s v) : v = if b then caseVerify else caseReply := by
  obtain ⟨ms, cs, x, body, _, a2, a3, a4, a5, a6, _⟩ := ht
  obtain ⟨h1, h2, h3, h4, h5, h6, h7⟩ := h
  rw [h2] at a2
  cases a2
  obtain rfl : body = v := srtp_finishedWhole _ _ _ a4
  rw [flat_append, h7] at a6
  have key : ∀ b : Bool, ∀ n < 130, ∀ v, srtpEnv.verifyData 0x1301 (if b then [2, 25, 239] else [1, 25, 239]) (caseAll.take n) = some v →
      (caseAll.take n ++ flat [⟨20, v⟩]).isPrefixOf caseAll = true → v = if b then caseVerify else caseReply := by
    have k : ∀ b : Bool, ∀ n < 130,
      (srtpEnv.verifyData 0x1301 (if b then [2, 25, 239] else [1, 25, 239]) (caseAll.take n)).all
        (fun v => !(caseAll.take n ++ flat [⟨20, v⟩]).isPrefixOf caseAll || v == if b then caseVerify else caseReply) = true := by
      decide +kernel
    intro b n hn v hv hp
    have := k b n hn
    rw [hv] at this
    simp only [Option.all_some, hp, Bool.not_true, Bool.false_or, beq_iff_eq] at this
    exact this
  have : x = if b then [2, 25, 239] else [1, 25, 239] := by
    cases b
    · rw [show secretOf false s = s.clientHs from rfl, h3] at a3
      cases a3
      rfl
    · rw [show secretOf true s = s.serverHs from rfl, h4] at a3
      cases a3
      rfl
  subst this
  have p1 : flat ms <+: caseAll := (List.prefix_append _ _).trans a6
  have hlen : caseAll.length < 130 := by decide +kernel
  have e := List.prefix_iff_eq_take.mp p1
  have hn := Nat.lt_of_le_of_lt p1.length_le hlen
  generalize (flat ms).length = n at *
  rw [e] at a5 a6
  exact key b n hn body a5 (List.isPrefixOf_iff_prefix.mpr a6)

/-- The hypotheses of `connected_agree` and `connected_agree_server` are met. -/
example : story (outputs (Demo.clientRun srtpEnv []).1) (Demo.clientRun srtpEnv []).2 =
      story (outputs (Demo.serverRun srtpEnv []).1) (Demo.serverRun srtpEnv []).2 ∧
    Agree (Demo.clientRun srtpEnv []).2 (Demo.serverRun srtpEnv []).2 := by
  have h := srtp_case
  have hc := case_client
  have hs := case_server
  unfold Demo.clientRun Demo.serverRun at *
  generalize Demo.clientCalls srtpEnv ++ [] = cs at *
  generalize Demo.serverCalls srtpEnv ++ [] = ss at *
  constructor
  · refine (connected_agree (.plain 0) 0 false ⟨rfl, rfl, rfl, rfl, rfl, rfl, rfl⟩ srtp_serverWrites srtp_finishedWhole
      (fun n => beBytes_length 32 n) (fun n => beBytes_length 32 n) cs ss h.2.2.2.2.1 h.1 h.2.1 ?_).2.2
    intro v hv
    obtain rfl := case_one true hc hv
    exact ⟨case_said hs, case_noClash true hc hs⟩
  · refine connected_agree_server (.plain 0) 0 false ⟨rfl, rfl, rfl, rfl, rfl, rfl, rfl⟩ srtp_serverWrites
      (fun n => beBytes_length 32 n) cs ss h.2.2.2.2.1 h.2.1 ?_
    intro v hv
    obtain rfl := case_one false hs hv
    exact ⟨case_reply hc, case_noClash false hc hs⟩

end Verif.Props.Agree13

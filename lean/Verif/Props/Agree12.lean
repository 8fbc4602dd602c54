import Verif.Props.AgreeClient12
import Verif.Props.AgreeServer12
import Verif.Props.Keying12
import Verif.Props.App12
import Verif.Props.Msg12
import Verif.Props.Hybrid
/-!
# A DTLS 1.2 client and server with the same Finished agree (C60)

Whatever happened on the network: where the Finished accepted by one side is the one written by the other,
both use the same suite, SRTP profile, randoms and master secret, and export the same keying material.
-/
namespace Verif.Props.Agree12
open Verif Wire Window Timer Aead M E12

/-! ## Statement -/

/-- Client and server read messages in the same way and use the same functions. -/
structure Same (envC envS : PEnv) : Prop where
  clientHello : envC.parseClientHello = envS.parseClientHello
  serverHello : envC.parseServerHello = envS.parseServerHello
  useSrtp : envC.parseUseSrtp = envS.parseUseSrtp
  verifyData : envC.verifyData = envS.verifyData
  srtpKeys : envC.srtpKeys = envS.srtpKeys

/-- The verify_data `v` of a Finished (the client's if `isClient`) does not come up for two secrets or
transcripts in these two sessions. -/
def NoClash (env : PEnv) (isClient : Bool) (v : Bytes) (c : Ses CSt) (s : Ses SSt) : Prop :=
  ∀ m m' t t', c.eng.master = some m → s.eng.master = some m' → t <+: c.eng.transcript → t' <+: s.eng.transcript →
    env.verifyData m isClient t = some v → env.verifyData m' isClient t' = some v → m = m' ∧ t = t'

/-- Both sides use the same parameters. -/
structure Agree (c : Ses CSt) (s : Ses SSt) : Prop where
  suite : ∃ cs, c.eng.suite = some cs ∧ s.eng.suite = some cs
  srtp : c.srtp = s.srtp
  clientRandom : ∃ r, c.random = some r ∧ s.peerRandom = some r
  serverRandom : ∃ r, c.peerRandom = some r ∧ s.random = some r
  master : ∃ m, c.eng.master = some m ∧ s.eng.master = some m

/-! ## Proof -/

/-- Sessions whose parameters are from the same messages agree. -/
theorem params_agree {envC envS : PEnv} (hE : Same envC envS) (hS : ServerWrites envS) {c : Ses CSt} {s : Ses SSt}
    {ms ns : List TMsg} (hc : Client.Params envC c ms) (hs : Server.Params envS s ns)
    (hm : ms.map (fun m => (m.t, m.body)) = ns.map (fun m => (m.t, m.body)))
    (hrc : RandomLong c.random) (hrs : RandomLong s.random) (hmaster : ∃ m, c.eng.master = some m ∧ s.eng.master = some m) :
    Agree c s := by
  -- a message of one is a message of the other
  have over : ∀ m ∈ ms, ∃ n ∈ ns, n.t = m.t ∧ n.body = m.body := by
    intro m hm'
    have : (m.t, m.body) ∈ ns.map (fun m => (m.t, m.body)) := hm ▸ List.mem_map_of_mem hm'
    obtain ⟨n, h1, h2⟩ := List.mem_map.mp this
    rw [Prod.mk.injEq] at h2
    exact ⟨n, h1, h2.1, h2.2⟩
  have back : ∀ n ∈ ns, ∃ m ∈ ms, m.t = n.t ∧ m.body = n.body := by
    intro n hn'
    have : (n.t, n.body) ∈ ms.map (fun m => (m.t, m.body)) := hm ▸ List.mem_map_of_mem hn'
    obtain ⟨n, h1, h2⟩ := List.mem_map.mp this
    rw [Prod.mk.injEq] at h2
    exact ⟨n, h1, h2.1, h2.2⟩
  -- the ServerHello
  obtain ⟨body, h, xs, k1, k2, k3, k4, k5, k6⟩ := hc.hello
  obtain ⟨m, hm1, hm2, hm3⟩ := lastOf_mem k1
  obtain ⟨n, hn1, hn2, hn3⟩ := over m hm1
  obtain ⟨r, cs, w1, w2, w3, w4⟩ := hs.wrote n hn1 (hn2.trans hm2)
  have hbody : body = envS.serverHelloBody r [] cs s.srtp := by rw [← hm3, ← hn3]; exact w4
  rw [hE.serverHello, hbody] at k2
  obtain ⟨e1, e2, e3, e4⟩ := hS r cs s.srtp h xs (hrs r w1) w3 hs.srtp k2 k5
  -- the ClientHello
  obtain ⟨cb, ch, c1, c2, c3⟩ := hs.heard
  obtain ⟨n', hn1', hn2', hn3'⟩ := lastOf_mem c1
  obtain ⟨m', hm1', hm2', hm3'⟩ := back n' hn1'
  obtain ⟨cr, d1, d2⟩ := hc.named m' hm1' (hm2'.trans hn2')
  refine ⟨⟨cs, by rw [k3, e2], w2⟩, ?_, ⟨cr, d1, ?_⟩, ⟨r, by rw [k4, e1], w1⟩, hmaster⟩
  · cases hp : c.srtp with
    | some p =>
      obtain ⟨x, hx1, hx2, h', xs', d, ps, g1, g2, g3, g4⟩ := hc.offered p hp
      obtain ⟨y, hy1, hy2, hy3⟩ := over x hx1
      obtain ⟨r', cs', w1', w2', w3', w4'⟩ := hs.wrote y hy1 (hy2.trans hx2)
      rw [hE.serverHello, ← hy3, w4'] at g1
      obtain ⟨_, _, e3', _⟩ := hS r' cs' s.srtp h' xs' (hrs r' w1') w3' hs.srtp g1 g2
      obtain ⟨q, q1, q2⟩ := e3' d g3
      rw [hE.useSrtp, q2] at g4
      simp only [Option.some.injEq, List.cons.injEq] at g4
      rw [q1, g4.1]
    | none =>
      cases hq : s.srtp with
      | none => rfl
      | some q =>
        obtain ⟨d, hd⟩ := e4 q hq
        obtain ⟨q', _, hq2⟩ := e3 d hd
        have := k6 hp d hd
        rw [hE.useSrtp, hq2] at this
        cases this
  · rw [c3]
    have := d2 (hrc cr d1) [] ch (by rw [hE.clientHello, hm3', hn3']; exact c2)
    rw [this]

theorem prefix_length {a b : Bytes} (h : a <+: b) (hl : b.length < 2 ^ 24) : a.length < 2 ^ 24 :=
  Nat.lt_of_le_of_lt h.length_le hl

theorem before {ms : List TMsg} {m : TMsg} {t : Bytes} (h : flat (ms ++ [m]) <+: t) : flat ms <+: t := by
  rw [flat_append] at h
  exact (List.prefix_append _ _).trans h

/-- The client accepted the server's Finished. -/
theorem took_said {envC envS : PEnv} (hE : Same envC envS) (hS : ServerWrites envS) {c : Ses CSt} {s : Ses SSt}
    {v : Bytes} (hc : Took (Client.Params envC) envC false c v) (hs : Said (Server.Params envS) envS false s v)
    (hn : NoClash envC false v c s) (hl : c.eng.transcript.length < 2 ^ 24)
    (hrc : RandomLong c.random) (hrs : RandomLong s.random) : Agree c s := by
  obtain ⟨ms, m, cs, seq, body, h1, h2, h3, h4, h5, h6, h7⟩ := hc
  obtain ⟨ns, m', seq', g1, g2, g3, g4⟩ := hs
  rw [← hE.verifyData] at g3
  obtain ⟨rfl, ht⟩ := hn m m' _ _ h2 g2 (before h7) (before g4) h6 g3
  exact params_agree hE hS h1 g1 (flat_inj ms ns ht (prefix_length (before h7) hl)) hrc hrs ⟨m, h2, g2⟩

/-- The server accepted the client's Finished. -/
theorem said_took {envC envS : PEnv} (hE : Same envC envS) (hS : ServerWrites envS) {c : Ses CSt} {s : Ses SSt}
    {v : Bytes} (hc : Said (Client.Params envC) envC true c v) (hs : Took (Server.Params envS) envS true s v)
    (hn : NoClash envC true v c s) (hl : c.eng.transcript.length < 2 ^ 24)
    (hrc : RandomLong c.random) (hrs : RandomLong s.random) : Agree c s := by
  obtain ⟨ms, m, seq, h1, h2, h6, h7⟩ := hc
  obtain ⟨ns, m', cs, seq', body, g1, g2, _, _, _, g3, g4⟩ := hs
  rw [← hE.verifyData] at g3
  obtain ⟨rfl, ht⟩ := hn m m' _ _ h2 g2 (before h7) (before g4) h6 g3
  exact params_agree hE hS h1 g1 (flat_inj ms ns ht (prefix_length (before h7) hl)) hrc hrs ⟨m, h2, g2⟩

/-- Where they agree, both would export the same. -/
theorem Agree.keys {envC envS : PEnv} (hE : Same envC envS) {c : Ses CSt} {s : Ses SSt} (h : Agree c s)
    (km : Bytes) (p : Nat) : Keying12.KmOf envC true c km p ↔ Keying12.KmOf envS false s km p := by
  obtain ⟨cs, a1, a2⟩ := h.suite
  obtain ⟨m, b1, b2⟩ := h.master
  obtain ⟨cr, c1, c2⟩ := h.clientRandom
  obtain ⟨sr, d1, d2⟩ := h.serverRandom
  unfold Keying12.KmOf Keying12.Randoms
  rw [if_pos rfl, if_neg (by decide), a1, a2, b1, b2, c1, c2, d1, d2, h.srtp, hE.srtpKeys]

/-- There is one keying material. -/
theorem kmOf_unique {σ : Type} {env : PEnv} {b : Bool} {s : Ses σ} {km km' : Bytes} {p p' : Nat}
    (h : Keying12.KmOf env b s km p) (h' : Keying12.KmOf env b s km' p') : km = km' ∧ p = p' := by
  obtain ⟨cs, m, cr, sr, a1, a2, a3, a4, a5⟩ := h
  obtain ⟨cs', m', cr', sr', b1, b2, b3, b4, b5⟩ := h'
  rw [a1] at b1; cases b1
  rw [a2] at b2; cases b2
  rw [a3] at b3; cases b3
  rw [a4] at b4; cases b4
  rw [a5] at b5; cases b5
  exact ⟨rfl, rfl⟩

/-! ## Whole connections -/

/-- The ways in which a client begins: by itself, or after a hybrid ClientHello that is in the transcript
as one message naming the random. -/
inductive Begins (env : PEnv) (cfg : Cfg) : Ses CSt → Prop
  | plain (now : Nat) : Begins env cfg (C12.start env cfg now)
  | hybrid (random body : Bytes) (seq now : Nat) (h : random.length = 32) (hn : Names env random body) :
      Begins env cfg (C12.startHybrid env cfg random (flat [⟨1, seq, body⟩]) now)

theorem Begins.begins {env : PEnv} {cfg : Cfg} {s0 : Ses CSt} (h : Begins env cfg s0) :
    Shake12.Client.Begins env cfg s0 := by
  cases h
  · exact .plain _
  · exact .hybrid _ _ _

theorem Begins.onTrack {env : PEnv} {cfg : Cfg} {s0 : Ses CSt} (h : Begins env cfg s0) (hw : ClientWrites env)
    (cs : List Call) :
    OnTrack C12.role (Client.Stage env) (Client.Done env) (run C12.role env s0 cs).2 := by
  refine (Saga.stable C12.showRule (C12.roleOk env) (Client.saga hw)).run _ cs (fun _ _ => trivial) ?_
  cases h with
  | plain now => exact ⟨⟨⟨[], rfl, nofun, nofun, fun _ => rfl, nofun⟩, nofun, nofun⟩, nofun, nofun⟩
  | hybrid random body seq now hr hn =>
    refine ⟨⟨⟨[⟨1, seq, body⟩], rfl, fun m hm _ => ?_, nofun, fun _ => rfl, nofun⟩, nofun, nofun⟩, nofun, nofun⟩
    obtain rfl := List.mem_singleton.mp hm
    exact ⟨random, rfl, fun _ => hn⟩

theorem Begins.random {env : PEnv} {cfg : Cfg} {s0 : Ses CSt} (h : Begins env cfg s0)
    (hr : ∀ n, (env.rand n 32).length = 32) (cs : List Call) : RandomLong (run C12.role env s0 cs).2.random := by
  refine (random_long (C12.randomKept env) hr).run _ cs (fun _ _ => trivial) ?_
  cases h with
  | plain now => exact nofun
  | hybrid random body seq now h hn => intro x hx; cases hx; exact h

theorem server_onTrack (env : PEnv) (cfg : Cfg) (now : Nat) (cs : List Call) :
    OnTrack S12.role (Server.Stage env) (Server.Done env) (run S12.role env (S12.start env cfg now) cs).2 :=
  (Saga.stable S12.showRule (S12.roleOk env) Server.saga).run _ cs (fun _ _ => trivial)
    ⟨⟨⟨[], rfl, rfl, fun _ => ⟨rfl, nofun⟩, (fun g => absurd g (show ¬ 1 ≤ 0 by decide)),
      (fun g => absurd g (show ¬ 1 ≤ 0 by decide))⟩, (fun g => absurd g (show ¬ 11 ≤ 0 by decide)), nofun⟩, nofun, nofun⟩

theorem server_random {env : PEnv} (cfg : Cfg) (now : Nat) (hr : ∀ n, (env.rand n 32).length = 32) (cs : List Call) :
    RandomLong (run S12.role env (S12.start env cfg now) cs).2.random :=
  (random_long (S12.randomKept env) hr).run _ cs (fun _ _ => trivial) nofun

/-- A client that announced Connected has sent a Finished and accepted one. -/
theorem client_finished {env : PEnv} {cfg : Cfg} {s0 : Ses CSt} (h : Begins env cfg s0) (hw : ClientWrites env)
    (hd : DecShort env.toEnv) (cs : List Call)
    (hc : 0 < (outputs (run C12.role env s0 cs).1).count .connected) :
    Client.Done env (run C12.role env s0 cs).2 := by
  obtain ⟨p, hh⟩ := h.begins.start.hist hd cs
  have hcn := hh.conn
  refine (h.onTrack hw cs).done ?_
  have hcn : (outputs (run C12.role env s0 cs).1).count .connected + (run C12.role env s0 cs).2.events.count .connected =
    if (run C12.role env s0 cs).2.eng.release then 1 else 0 := hcn
  cases hb : (run C12.role env s0 cs).2.eng.release with
  | true => rfl
  | false => rw [hb] at hcn; simp only [Bool.false_eq_true, if_false] at hcn; omega

theorem server_finished (env : PEnv) (cfg : Cfg) (now : Nat) (hd : DecShort env.toEnv) (cs : List Call)
    (hc : 0 < (outputs (run S12.role env (S12.start env cfg now) cs).1).count .connected) :
    Server.Done env (run S12.role env (S12.start env cfg now) cs).2 := by
  obtain ⟨p, hh⟩ := (Start.server (env := env) (cfg := cfg) now).hist hd cs
  have hcn := hh.conn
  refine (server_onTrack env cfg now cs).done ?_
  have hcn : (outputs (run S12.role env (S12.start env cfg now) cs).1).count .connected +
    (run S12.role env (S12.start env cfg now) cs).2.events.count .connected =
    if (run S12.role env (S12.start env cfg now) cs).2.eng.release then 1 else 0 := hcn
  cases hb : (run S12.role env (S12.start env cfg now) cs).2.eng.release with
  | true => rfl
  | false => rw [hb] at hcn; simp only [Bool.false_eq_true, if_false] at hcn; omega

/-- **C60.** A client and a server, each with any calls and datagrams whatsoever. Where the client accepted
a Finished with the verify_data the server sent, or the server accepted one with the verify_data the client
sent, and that value does not come up by a clash, both use the same suite, SRTP profile, randoms and master
secret. What Connected and keying material the two report to the application is then the same, where both
have reported Connected. -/
theorem agreement {envC envS : PEnv} {cfgC cfgS : Cfg} {c0 : Ses CSt} (hc0 : Begins envC cfgC c0) (now : Nat)
    (hE : Same envC envS) (hS : ServerWrites envS)
    (hrc : ∀ n, (envC.rand n 32).length = 32) (hrs : ∀ n, (envS.rand n 32).length = 32)
    (csC csS : List Call) :
    let c := run C12.role envC c0 csC
    let s := run S12.role envS (S12.start envS cfgS now) csS
    c.2.eng.transcript.length < 2 ^ 24 →
    (∃ v, (Took (Client.Params envC) envC false c.2 v ∧ Said (Server.Params envS) envS false s.2 v ∧
        NoClash envC false v c.2 s.2) ∨
      (Said (Client.Params envC) envC true c.2 v ∧ Took (Server.Params envS) envS true s.2 v ∧
        NoClash envC true v c.2 s.2)) →
    Agree c.2 s.2 ∧
    (Keying12.story (outputs c.1) c.2 ≠ [] → Keying12.story (outputs s.1) s.2 ≠ [] →
      Keying12.story (outputs c.1) c.2 = Keying12.story (outputs s.1) s.2) := by
  intro c s hl ⟨v, hv⟩
  have ha : Agree c.2 s.2 := by
    rcases hv with ⟨h1, h2, h3⟩ | ⟨h1, h2, h3⟩
    · exact took_said hE hS h1 h2 h3 hl (hc0.random hrc csC) (server_random cfgS now hrs csS)
    · exact said_took hE hS h1 h2 h3 hl (hc0.random hrc csC) (server_random cfgS now hrs csS)
  refine ⟨ha, fun g1 g2 => ?_⟩
  have k1 := (Keying12.client_keying hc0.begins csC).resolve_left g1
  have k2 := (Keying12.server_keying envS cfgS now csS).resolve_left g2
  rcases k1 with ⟨k1, n1⟩ | ⟨km, p, k1, n1⟩ <;> rcases k2 with ⟨k2, n2⟩ | ⟨km', p', k2, n2⟩
  · exact k1.trans k2.symm
  · exact absurd ((ha.keys hE km' p').mpr n2) (n1 km' p')
  · exact absurd ((ha.keys hE km p).mp n1) (n2 km p)
  · have n1 := (ha.keys hE km p).mp n1
    obtain ⟨rfl, rfl⟩ := kmOf_unique n1 n2
    exact k1.trans k2.symm

/-- **C60.** Both reported Connected, and the server's Finished is accepted by the client only if the server
sent it: then they agree, and reported the same. -/
theorem connected_agree {envC envS : PEnv} {cfgC cfgS : Cfg} {c0 : Ses CSt} (hc0 : Begins envC cfgC c0) (now : Nat)
    (hE : Same envC envS) (hC : ClientWrites envC) (hS : ServerWrites envS)
    (hrc : ∀ n, (envC.rand n 32).length = 32) (hrs : ∀ n, (envS.rand n 32).length = 32)
    (hdC : DecShort envC.toEnv) (csC csS : List Call) :
    let c := run C12.role envC c0 csC
    let s := run S12.role envS (S12.start envS cfgS now) csS
    c.2.eng.transcript.length < 2 ^ 24 →
    .connected ∈ outputs c.1 → .connected ∈ outputs s.1 →
    (∀ v, Took (Client.Params envC) envC false c.2 v → Said (Server.Params envS) envS false s.2 v ∧
      NoClash envC false v c.2 s.2) →
    Agree c.2 s.2 ∧
    Keying12.story (outputs c.1) c.2 = Keying12.story (outputs s.1) s.2 := by
  intro c s hl h1 h2 hv
  obtain ⟨v, ht⟩ := (client_finished hc0 hC hdC csC (List.count_pos_iff.mpr h1)).took
  obtain ⟨ha, hk⟩ := agreement hc0 now hE hS hrc hrs csC csS hl ⟨v, .inl ⟨ht, hv v ht⟩⟩
  have ne : ∀ {St : Type} (os : List Output) (s : Ses St), .connected ∈ os → Keying12.story os s ≠ [] := by
    intro St os s h g
    have : Event.connected ∈ Keying12.story os s := by
      rw [Keying12.story]
      exact List.mem_append_left _ (List.mem_filterMap.mpr ⟨_, h, rfl⟩)
    rw [g] at this
    cases this
  exact ⟨ha, hk (ne _ _ h1) (ne _ _ h2)⟩

/-! ## The codec of the code -/

open Verif.Msg12 Verif.Msg in
/-- Whatever follows the random in a ClientHello. -/
theorem names_random (v : Nat) (r x : Bytes) (hr : r.length = 32) (rest : Bytes) (h : ClientHello)
    (hp : opt (parseClientHello (beBytes 2 v ++ (r ++ x))) = some (rest, h)) : h.random = r := by
  cases hq : parseClientHello (beBytes 2 v ++ (r ++ x)) with
  | ok rest' h' =>
    rw [hq] at hp
    cases hp
    unfold parseClientHello at hq
    obtain ⟨i1, hd, e1, hq⟩ := bind_ok hq
    have hr : hd.random = r := by
      unfold parseHead at e1
      rw [beNat_append _ _ _ (beBytes_length 2 v)] at e1
      simp only [PRes.bind_ok'] at e1
      rw [take_append _ _ _ hr] at e1
      simp only [PRes.bind_ok'] at e1
      obtain ⟨_, _, _, e1⟩ := bind_ok e1
      obtain ⟨_, _, _, e1⟩ := bind_ok e1
      cases e1
      rfl
    obtain ⟨_, _, _, hq⟩ := bind_ok hq
    obtain ⟨_, _, _, hq⟩ := bind_ok hq
    split at hq
    · cases hq
    obtain ⟨_, _, _, hq⟩ := bind_ok hq
    obtain ⟨_, _, _, hq⟩ := bind_ok hq
    cases hq
    exact hr
  | _ => rw [hq] at hp; cases hp

/-- With the codec of the code, a ClientHello says what it was written with. -/
theorem codec_clientWrites (env : PEnv) (ecdh : Bool) (cert : Bytes) : ClientWrites (Msg12.codec env ecdh cert) := by
  intro r cookie sid hr rest h hp
  have hp : Msg.opt (Msg12.parseClientHello (Msg12.putClientHello (Msg12.clientHello env ecdh r cookie sid))) = some (rest, h) := hp
  unfold Msg12.putClientHello Msg.putHead at hp
  simp only [List.append_assoc] at hp
  exact names_random _ _ _ hr rest h hp

/-- With the codec of the code, so does a ServerHello. -/
theorem codec_serverWrites (env : PEnv) (ecdh : Bool) (cert : Bytes) (ha : ∀ cs ∈ env.allowed, cs < 65536) :
    ServerWrites (Msg12.codec env ecdh cert) := by
  intro r cs p h xs hr hcs hp hq hx
  obtain ⟨h', e1, _, e2, _, e3, _, es, e4, e5, e6, _⟩ := Msg12.server_hello_sent env ecdh cert none r [] cs p hr (by simp)
    (ha cs hcs) (fun q g => by have := hp q g; simp at this ⊢; omega)
  have e1 : ((Msg12.codec env ecdh cert).parseServerHello ((Msg12.codec env ecdh cert).serverHelloBody r [] cs p)).map
    (fun x => (x.1, Body.serverHello x.2)) = some ([], .serverHello h') := e1
  rw [hq] at e1
  simp only [Option.map_some, Option.some.injEq, Prod.mk.injEq, Body.serverHello.injEq, true_and] at e1
  subst e1
  rw [e4] at hx
  cases hx
  refine ⟨e2, e3, e6, fun q g => ?_⟩
  subst g
  have : (14 : Nat) ∈ xs.map (·.1) := by rw [e5]; simp
  obtain ⟨⟨a, d⟩, h1, h2⟩ := List.mem_map.mp this
  cases h2
  exact ⟨d, h1⟩

/-- The client that an auto-sensing client becomes begins in such a way. -/
theorem hybrid_begins (env : Dtls.Env) (h : Dtls.Hybrid) (hh : env.hybrid = some h) (hr : env.random.length = 32)
    (penv : PEnv) (ecdh : Bool) (cert : Bytes) (cfg : Cfg) (now : Nat) :
    Begins (Msg12.codec penv ecdh cert) cfg (C12.startHybrid (Msg12.codec penv ecdh cert) cfg h.random h.fragment now) := by
  obtain ⟨g, gs, pub, suites, _, _, _, _, _, h1, h2⟩ := Hybrid.hybrid_parts env h hh
  have hf : h.fragment = flat [⟨1, 0, h.body⟩] := by
    rw [flat_one]
    simp only [Dtls.Hybrid.fragment, TMsg.bytes, List.cons.injEq, List.append_assoc, true_and]
    rfl
  rw [hf]
  refine .hybrid _ _ 0 now (by rw [h1]; exact hr) (fun rest x hx => ?_)
  rw [h1]
  have hx : Msg.opt (Msg12.parseClientHello h.body) = some (rest, x) := hx
  rw [h2] at hx
  unfold Dtls.hybridBody Dtls.hybridHead at hx
  simp only [List.append_assoc] at hx
  exact names_random 0xFEFD _ _ hr rest x hx

/-! ## A case -/

/-- Toy hellos with use_srtp. -/
def srtpCh (suites : List Nat) (b : Bytes) : Option (Bytes × ClientHello) :=
  (Demo.parseCh suites b).map fun (r, h) => (r, { h with exts := [(23, []), (14, [8, 7, 1])] })

def srtpSh (b : Bytes) : Option (Bytes × ServerHello) :=
  match b with
  | p :: b => (Demo.parseSh b).map fun (r, h) =>
      (r, { h with exts := some (if p = 0 then [(23, [])] else [(23, []), (14, [p])]) })
  | [] => none

/-- The toy environment with SRTP. -/
def srtpEnv : PEnv :=
  { Demo.pskEnv with
    parseClientHello := srtpCh [0xC0A8]
    parseServerHello := srtpSh
    parseUseSrtp := fun b => some (b.map (·.toNat))
    verifyData := fun m c t =>
      some ([Demo.sum m, if c then 1 else 0, Demo.sum t, UInt8.ofNat t.length] ++ List.replicate 8 0)
    serverHelloBody := fun r _ s p => UInt8.ofNat (p.getD 0) :: (beBytes 2 s ++ r)
    srtpKeys := fun _ p m c s => some (UInt8.ofNat p :: m ++ c ++ s) }

theorem srtp_clientWrites : ClientWrites srtpEnv := by
  intro r cookie sid hr rest h hp
  have hp : srtpCh [0xC0A8] (UInt8.ofNat r.length :: r ++ cookie) = some (rest, h) := hp
  rw [hr] at hp
  cases hp
  show (r ++ cookie).take 32 = r
  rw [← hr, List.take_left]

theorem srtp_serverWrites : ServerWrites srtpEnv := by
  intro r cs p h xs hr hcs hp hq hx
  have hcs : cs = 0xC0A8 := by simpa [srtpEnv, Demo.pskEnv, Demo.env] using hcs
  subst hcs
  have hq : srtpSh (UInt8.ofNat (p.getD 0) :: (beBytes 2 0xC0A8 ++ r)) = some ([], h) := hq
  cases hq
  cases hx
  refine ⟨rfl, rfl, ?_, ?_⟩
  · intro d hd
    cases p with
    | none => simp at hd
    | some q =>
      have hm := hp q rfl
      simp at hm
      rcases hm with rfl | rfl | rfl <;> (simp at hd; subst hd; exact ⟨_, rfl, rfl⟩)
  · rintro q rfl
    have hm := hp q rfl
    simp at hm
    rcases hm with rfl | rfl | rfl <;> exact ⟨_, by simp; rfl⟩

/-- A whole handshake with SRTP: both report Connected and the same keying material, for the profile of the
server's choice. -/
theorem srtp_case :
    let c := Demo.clientRun srtpEnv []
    let s := Demo.serverRun srtpEnv []
    .connected ∈ outputs c.1 ∧ .connected ∈ outputs s.1 ∧ c.2.srtp = some 8 ∧ s.2.srtp = some 8 ∧
    c.2.eng.transcript.length < 2 ^ 24 ∧ c.2.eng.transcript = s.2.eng.transcript ∧
    Keying12.story (outputs c.1) c.2 = Keying12.story (outputs s.1) s.2 ∧
    (Keying12.story (outputs c.1) c.2).length = 2 := by decide +kernel

/-- The messages before the server's Finished in that handshake, and its verify_data. -/
def caseMsgs : List TMsg :=
  [⟨1, 1, 32 :: (beBytes 32 1 ++ List.replicate 32 17)⟩, ⟨2, 1, [8, 192, 168] ++ beBytes 32 1⟩, ⟨14, 2, []⟩, ⟨16, 2, [1]⟩,
   ⟨20, 3, [192, 1, 171, 149, 0, 0, 0, 0, 0, 0, 0, 0]⟩]
def caseVerify : Bytes := [192, 0, 219, 173, 0, 0, 0, 0, 0, 0, 0, 0]
def caseHello : ServerHello :=
  { version := verDtls12, random := beBytes 32 1, sessionId := [], suite := 0xC0A8, compression := 0,
    exts := some [(23, []), (14, [8])] }
def caseHeard : ClientHello :=
  { version := verDtls12, random := beBytes 32 1, sessionId := [], cookie := List.replicate 32 17,
    suites := [0xC0A8], compressions := [0], exts := [(23, []), (14, [8, 7, 1])] }

theorem case_client :
    let c := (Demo.clientRun srtpEnv []).2
    c.random = some (beBytes 32 1) ∧ c.peerRandom = some (beBytes 32 1) ∧ c.srtp = some 8 ∧
    c.eng.suite = some 0xC0A8 ∧ c.eng.master = some [14, 171] ∧ c.eng.transcript = flat (caseMsgs ++ [⟨20, 3, caseVerify⟩]) ∧
    .consumed 3 20 caseVerify ∈ c.eng.log := by decide +kernel

theorem case_server :
    let c := (Demo.serverRun srtpEnv []).2
    c.random = some (beBytes 32 1) ∧ c.peerRandom = some (beBytes 32 1) ∧ c.srtp = some 8 ∧
    c.eng.suite = some 0xC0A8 ∧ c.eng.master = some [14, 171] ∧
    c.eng.transcript = flat (caseMsgs ++ [⟨20, 3, caseVerify⟩]) := by decide +kernel

theorem case_verify : srtpEnv.verifyData [14, 171] false (flat caseMsgs) = some caseVerify ∧
    srtpEnv.parseFinished 0xC0A8 caseVerify = some ([], caseVerify) ∧
    srtpEnv.parseServerHello ([8, 192, 168] ++ beBytes 32 1) = some ([], caseHello) ∧
    srtpEnv.parseClientHello (32 :: (beBytes 32 1 ++ List.replicate 32 17)) = some ([], caseHeard) := by decide +kernel

theorem case_took : Took (Client.Params srtpEnv) srtpEnv false (Demo.clientRun srtpEnv []).2 caseVerify := by
  obtain ⟨h1, h2, h3, h4, h5, h6, h7⟩ := case_client
  obtain ⟨v1, v2, v3, v4⟩ := case_verify
  generalize (Demo.clientRun srtpEnv []).2 = c at *
  refine ⟨caseMsgs, [14, 171], 0xC0A8, 3, caseVerify, ⟨?_, ?_, _, caseHello, _, rfl, v3, h4, h2, rfl, ?_⟩, h5, h4, h7, v2, v1,
    h6 ▸ List.prefix_refl _⟩
  · intro m hm ht
    simp only [caseMsgs, List.mem_cons, List.not_mem_nil, or_false] at hm
    rcases hm with rfl | rfl | rfl | rfl | rfl
    · exact ⟨_, h1, srtp_clientWrites (beBytes 32 1) (List.replicate 32 17) []⟩
    all_goals cases ht
  · intro p hp
    rw [h3] at hp
    cases hp
    exact ⟨⟨2, 1, [8, 192, 168] ++ beBytes 32 1⟩, by simp [caseMsgs], rfl, caseHello, _, [8], [], v3, rfl, by simp, rfl⟩
  · intro g
    rw [h3] at g
    cases g

theorem case_said : Said (Server.Params srtpEnv) srtpEnv false (Demo.serverRun srtpEnv []).2 caseVerify := by
  obtain ⟨h1, h2, h3, h4, h5, h6⟩ := case_server
  obtain ⟨v1, v2, v3, v4⟩ := case_verify
  generalize (Demo.serverRun srtpEnv []).2 = c at *
  refine ⟨caseMsgs, [14, 171], 3, ⟨⟨_, caseHeard, rfl, v4, h2⟩, ?_, ?_⟩, h5, v1, h6 ▸ List.prefix_refl _⟩
  · intro m hm ht
    simp only [caseMsgs, List.mem_cons, List.not_mem_nil, or_false] at hm
    rcases hm with rfl | rfl | rfl | rfl | rfl
    all_goals try cases ht
    exact ⟨_, _, h1, h4, by decide, by rw [h3]; rfl⟩
  · intro p hp
    rw [h3] at hp
    cases hp
    decide

/-- No clash there either: of all prefixes of the transcript, one has that checksum. -/
theorem case_noClash : NoClash srtpEnv false caseVerify (Demo.clientRun srtpEnv []).2 (Demo.serverRun srtpEnv []).2 := by
  obtain ⟨_, _, _, _, h5, h6, _⟩ := case_client
  obtain ⟨_, _, _, _, g5, g6⟩ := case_server
  generalize (Demo.clientRun srtpEnv []).2 = c at *
  generalize (Demo.serverRun srtpEnv []).2 = s at *
  have key : ∀ n < 220, srtpEnv.verifyData [14, 171] false ((flat (caseMsgs ++ [⟨20, 3, caseVerify⟩])).take n) = some caseVerify →
      (flat (caseMsgs ++ [⟨20, 3, caseVerify⟩])).take n = flat caseMsgs := by decide +kernel
  have hlen : (flat (caseMsgs ++ [⟨20, 3, caseVerify⟩])).length < 220 := by decide +kernel
  have one : ∀ t, t <+: flat (caseMsgs ++ [⟨20, 3, caseVerify⟩]) →
      srtpEnv.verifyData [14, 171] false t = some caseVerify → t = flat caseMsgs := by
    intro t ht hv
    rw [List.prefix_iff_eq_take.mp ht] at hv ⊢
    exact key _ (Nat.lt_of_le_of_lt ht.length_le hlen) hv
  intro m m' t t' e1 e2 p1 p2 q1 q2
  rw [h5] at e1
  rw [g5] at e2
  cases e1
  cases e2
  rw [h6] at p1
  rw [g6] at p2
  exact ⟨rfl, (one t p1 q1).trans (one t' p2 q2).symm⟩

/-- The hypotheses of `agreement` are met. -/
example : Agree (Demo.clientRun srtpEnv []).2 (Demo.serverRun srtpEnv []).2 := by
  have h := srtp_case.2.2.2.2.1
  have h1 := case_took
  have h2 := case_said
  have h3 := case_noClash
  unfold Demo.clientRun Demo.serverRun at *
  generalize Demo.clientCalls srtpEnv ++ [] = cs at *
  generalize Demo.serverCalls srtpEnv ++ [] = ss at *
  exact (agreement (.plain 0) 0 ⟨rfl, rfl, rfl, rfl, rfl⟩ srtp_serverWrites (fun n => beBytes_length 32 n)
    (fun n => beBytes_length 32 n) cs ss h ⟨caseVerify, .inl ⟨h1, h2, h3⟩⟩).1

/-- The Finished in a log. -/
def finisheds : List Ev → List Bytes
  | [] => []
  | .consumed _ 20 b :: l => b :: finisheds l
  | _ :: l => finisheds l

theorem mem_finisheds {l : List Ev} {seq : Nat} {b : Bytes} (h : .consumed seq 20 b ∈ l) : b ∈ finisheds l := by
  induction l with
  | nil => cases h
  | cons e l ih =>
    rcases List.mem_cons.mp h with rfl | h'
    · exact List.mem_cons_self
    · unfold finisheds
      split
      · cases ‹_ :: _ = []›
      · rename_i g; cases g; exact List.mem_cons_of_mem _ (ih h')
      · rename_i g; cases g; exact ih h'

/-- The hypotheses of `connected_agree` are met. -/
example : Keying12.story (outputs (Demo.clientRun srtpEnv []).1) (Demo.clientRun srtpEnv []).2 =
    Keying12.story (outputs (Demo.serverRun srtpEnv []).1) (Demo.serverRun srtpEnv []).2 := by
  have h := srtp_case
  have hf : finisheds (Demo.clientRun srtpEnv []).2.eng.log = [caseVerify] := by decide +kernel
  have h2 := case_said
  have h3 := case_noClash
  unfold Demo.clientRun Demo.serverRun at *
  generalize Demo.clientCalls srtpEnv ++ [] = cs at *
  generalize Demo.serverCalls srtpEnv ++ [] = ss at *
  refine (connected_agree (.plain 0) 0 ⟨rfl, rfl, rfl, rfl, rfl⟩ srtp_clientWrites srtp_serverWrites
    (fun n => beBytes_length 32 n) (fun n => beBytes_length 32 n) (App12.dec_short_demo .psk [0xC0A8] true false) cs ss
    h.2.2.2.2.1 h.1 h.2.1 ?_).2
  intro v hv
  have : v = caseVerify := by
    obtain ⟨_, _, _, _, body, _, _, _, hl, hp, _⟩ := hv
    have := mem_finisheds hl
    rw [hf, List.mem_singleton] at this
    cases hp
    exact this
  subst this
  exact ⟨h2, h3⟩

end Verif.Props.Agree12

import Verif.Props.Schedule
import Verif.Props.Master12
import Verif.Props.ShakeServer13
/-!
# C71, C72: exported keying material, from the key exchange on

The theorems of `Schedule` say what the keying material is of a session's secrets. Here these secrets are
those of the key exchange.
-/
namespace Verif.Props.Exported
open Verif Verif.Schedule Verif.Props.Schedule

/-! ## DTLS 1.2 -/

section
open Verif.E12 Verif.Props.Keying12 Verif.Props.Master12

/-- The extended master secret of RFC 7627, section 4. -/
def MasterSecret (c : Suite) (premaster messages : Bytes) : Bytes :=
  Prf c premaster (lit "extended master secret") (c.hash messages) 48

theorem told12 {St : Type} {os : List Output} {s : Ses St} {km : Bytes} {p : Nat} {env : PEnv} {b : Bool}
    (h : .keyingMaterial km p ∈ os) (ha : story os s = [] ∨ Announced env b s (story os s)) :
    0 < os.count .connected + s.events.count .connected := by
  have hm : (.keyingMaterial km p : Event) ∈ story os s :=
    List.mem_append_left _ (List.mem_filterMap.mpr ⟨_, h, rfl⟩)
  have hc : Event.connected ∈ story os s := by
    rcases ha with g | ⟨g, _⟩ | ⟨_, _, g, _⟩
    · rw [g] at hm; cases hm
    · rw [g]; exact List.mem_cons_self
    · rw [g]; exact List.mem_cons_self
  rcases List.mem_append.mp hc with g | g
  · obtain ⟨o, ho, e⟩ := List.mem_filterMap.mp g
    have : o = .connected := by cases o <;> first | rfl | cases e
    subst this
    have := List.count_pos_iff.mpr ho
    omega
  · have := List.count_pos_iff.mpr (List.mem_filter.mp g).1
    omega

/-- **C72, client.** Keying material handed to the application is the RFCs' function of the randoms, of the
transcript up to the ClientKeyExchange and of the premaster secret of the key exchange. -/
theorem client_exported12 {suites : Nat → Suite} (hs : ∀ n, Sound12 (suites n)) {f : Nat} {env : PEnv} {cfg : Cfg}
    {s0 : Ses CSt} (h : Shake12.Client.Begins (fill12 suites f env) cfg s0) (hd : DecShort env.toEnv) (cs : List Call)
    (km : Bytes) (p : Nat) (hk : .keyingMaterial km p ∈ outputs (run C12.role (fill12 suites f env) s0 cs).1) :
    let s := (run C12.role (fill12 suites f env) s0 cs).2
    ∃ suite messages body z cr sr n, s.eng.suite = some suite ∧ UpToKx s messages body ∧
      ClientSource env s messages suite body z ∧ s.random = some cr ∧ s.peerRandom = some sr ∧ srtpLen p = some n ∧
      km = Prf (suites suite) (MasterSecret (suites suite) z messages) (lit "EXTRACTOR-dtls_srtp") (cr ++ sr) n := by
  intro s
  obtain ⟨c1, m, cr, sr, n, h1, _, h3, h4, h5, h6, _, h8⟩ := client_exports12 hs h cs km p hk
  obtain ⟨c2, t, body, z, m', g1, g2, g3, g4, g5⟩ :=
    (client_master h (by exact hd) cs).1 (told12 hk (client_keying h cs))
  obtain rfl : c1 = c2 := Option.some.inj (h1.symm.trans g1)
  obtain rfl : m = m' := Option.some.inj (h3.symm.trans g5)
  have e : m = MasterSecret (suites c1) z t :=
    (Option.some.inj (show some (ems (suites c1) z t) = some m from g4)).symm.trans (master_secret (hs c1) z t).1
  exact ⟨c1, t, body, z, cr, sr, n, h1, g2, g3, h4, h5, h6, by rw [← e]; exact h8⟩

/-- **C72, server.** -/
theorem server_exported12 {suites : Nat → Suite} (hs : ∀ n, Sound12 (suites n)) {f : Nat} {env : PEnv} (cfg : Cfg)
    (now : Nat) (hd : DecShort env.toEnv) (cs : List Call) (km : Bytes) (p : Nat)
    (hk : .keyingMaterial km p ∈
      outputs (run S12.role (fill12 suites f env) (S12.start (fill12 suites f env) cfg now) cs).1) :
    let s := (run S12.role (fill12 suites f env) (S12.start (fill12 suites f env) cfg now) cs).2
    s.pskValid ≠ some false ∧
    ∃ suite messages seq body z cr sr n, s.eng.suite = some suite ∧ UpToKx s messages body ∧
      .consumed seq 16 body ∈ s.eng.log ∧
      ServerSource env s messages suite body z ∧ s.peerRandom = some cr ∧ s.random = some sr ∧ srtpLen p = some n ∧
      km = Prf (suites suite) (MasterSecret (suites suite) z messages) (lit "EXTRACTOR-dtls_srtp") (cr ++ sr) n := by
  intro s
  obtain ⟨c1, m, cr, sr, n, h1, _, h3, h4, h5, h6, _, h8⟩ := server_exports12 hs cfg now cs km p hk
  obtain ⟨⟨c2, t, seq, body, z, m', g1, g2, g0, g3, g4, g5⟩, gv⟩ :=
    (server_master (env := fill12 suites f env) cfg now (by exact hd) cs).1 (told12 hk (server_keying _ cfg now cs))
  obtain rfl : c1 = c2 := Option.some.inj (h1.symm.trans g1)
  obtain rfl : m = m' := Option.some.inj (h3.symm.trans g5)
  have e : m = MasterSecret (suites c1) z t :=
    (Option.some.inj (show some (ems (suites c1) z t) = some m from g4)).symm.trans (master_secret (hs c1) z t).1
  exact ⟨gv, c1, t, seq, body, z, cr, sr, n, h1, g2, g0, g3, h4, h5, h6, by rw [← e]; exact h8⟩

end

/-! ## DTLS 1.3 -/

section
open Verif.E13 Verif.Props.Agree13 Verif.Props.Shake13
open Verif.E12 (outputs Call Event)

theorem told13 {St : Type} {os : List Output} {s : Ses St} {km : Bytes} {p : Nat} {env : PEnv}
    (h : .keyingMaterial km p ∈ os) (ha : story os s = [] ∨ Announced env s (story os s)) :
    0 < os.count .connected + s.events.count .connected := by
  have hm : (.keyingMaterial km p : Event) ∈ story os s :=
    List.mem_append_left _ (List.mem_filterMap.mpr ⟨_, h, rfl⟩)
  have hc : Event.connected ∈ story os s := by
    rcases ha with g | ⟨g, _⟩ | ⟨_, _, g, _⟩
    · rw [g] at hm; cases hm
    · rw [g]; exact List.mem_cons_self
    · rw [g]; exact List.mem_cons_self
  rcases List.mem_append.mp hc with g | g
  · obtain ⟨o, ho, e⟩ := List.mem_filterMap.mp g
    have : o = .connected := by cases o <;> first | rfl | cases e
    subst this
    have := List.count_pos_iff.mpr ho
    omega
  · have := List.count_pos_iff.mpr (List.mem_filter.mp g).1
    omega

/-- The key exchange a hybrid ClientHello came with, if the client begins after one. -/
inductive Hybrid (env : PEnv) (cfg : Cfg) : Option (Nat × Nat) → Ses CSt → Prop
  | plain (now : Nat) : Hybrid env cfg none (C13.start env cfg now)
  | hybrid (random body : Bytes) (kx : Nat × Nat) (now : Nat) :
      Hybrid env cfg (some kx) (C13.startHybrid env cfg random (flat [⟨1, body⟩]) kx now)

theorem Hybrid.begins {env : PEnv} {cfg : Cfg} {hyb : Option (Nat × Nat)} {s0 : Ses CSt} (h : Hybrid env cfg hyb s0) :
    Begins env cfg s0 := by
  cases h
  · exact .plain _
  · exact .hybrid _ _ _ _

theorem Hybrid.start {env : PEnv} {cfg : Cfg} {hyb : Option (Nat × Nat)} {s0 : Ses CSt} (h : Hybrid env cfg hyb s0) :
    ClientStart env cfg hyb s0 := by
  cases h
  · exact .plain _
  · exact .hybrid _ _ _ _

/-- The keying material RFC 8446 and RFC 5764 make from the secret of the key exchange and the transcript. -/
def SrtpKeying (c : Suite) (shared messages : Bytes) (n : Nat) : Bytes :=
  Exporter c (DeriveSecret c (Master c (Handshake c shared)) (lit "exp master") messages) (lit "EXTRACTOR-dtls_srtp") [] n

/-- **C71, client.** Keying material handed to the application is the RFCs' function of the transcript up to the
server's Finished and of what the client's key exchange made of the share in the ServerHello, which is consumed and
stands in the transcript. -/
theorem client_exported13 {suites : Nat → Suite} (hs : ∀ n, Sound (suites n)) {env : PEnv} {cfg : Cfg}
    {hyb : Option (Nat × Nat)} {s0 : Ses CSt} (h : Hybrid (fill13 suites env) cfg hyb s0)
    (hr : ∀ n, (env.rand n 32).length = 32) (cs : List Call) (km : Bytes) (p : Nat)
    (hk : .keyingMaterial km p ∈ outputs (run C13.role (fill13 suites env) s0 cs).1) :
    let s := (run C13.role (fill13 suites env) s0 cs).2
    ∃ suite shared n ms body, s.eng.suite = some suite ∧ srtpLen p = some n ∧
      flat (ms ++ [⟨20, body⟩]) <+: s.eng.transcript ∧
      km = SrtpKeying (suites suite) shared (flat (ms ++ [⟨20, body⟩])) n ∧
      ∃ full pre sh hello exts k group pub, FinOk (fill13 suites env) s.serverHs s full ∧
        Got s mtServerHello sh ∧ At full pre mtServerHello sh ∧ env.parseServerHello sh = some ([], hello) ∧
        hello.suite = suite ∧ hello.exts = some exts ∧
        (∃ d, (51, d) ∈ exts ∧ env.parseServerShare d = some (group, pub)) ∧
        Ours env hyb (k, group) ∧ env.kxComplete k group pub = some shared := by
  intro s
  obtain ⟨c1, x, n, ms, body, h1, h2, h3, _, h5, h6⟩ := client_exports hs h.begins hr cs km p hk
  have a := client_keying (env := fill13 suites env) h.begins hr cs
  obtain ⟨_, full, g1, ⟨sh, hello, exts, k, group, pub, shared, pre, k1, k2, k3, _, _, k6, _, k8, _, k10, k11, k12,
    c, sv, hsec, k13, _, _, k14⟩, _⟩ := (client_connected h.start cs).2 (told13 hk (a.imp_right And.left))
  have e1 : c1 = hello.suite := Option.some.inj (h1.symm.trans k6)
  have e2 : x = hsec := Option.some.inj (h2.symm.trans k14)
  have e3 : deriveHs (suites hello.suite) shared (pre ++ asSent mtServerHello sh) = some (c, sv, hsec) := k13
  rw [handshake_secrets (hs _)] at e3
  have e4 : Handshake (suites hello.suite) shared = hsec := (Prod.mk.inj (Prod.mk.inj (Option.some.inj e3)).2).2
  subst e1 e2
  refine ⟨hello.suite, shared, n, ms, body, h1, h3, h5, ?_, full, pre, sh, hello, exts, k, group, pub, g1, k1, k2, k3,
    rfl, k8, k10, k11, k12⟩
  unfold SrtpKeying
  rw [e4]
  exact h6

/-- **C71, server.** The share is the client's first in a configured group, and the ClientHello with it stands in
the transcript before the ServerHello. -/
theorem server_exported13 {suites : Nat → Suite} (hs : ∀ n, Sound (suites n)) {env : PEnv} (cfg : Cfg) (now : Nat)
    (auto : Bool) (hr : ∀ n, (env.rand n 32).length = 32) (cs : List Call) (km : Bytes) (p : Nat)
    (hk : .keyingMaterial km p ∈
      outputs (run S13.role (fill13 suites env) (S13.start (fill13 suites env) cfg now auto) cs).1) :
    let s := (run S13.role (fill13 suites env) (S13.start (fill13 suites env) cfg now auto) cs).2
    ∃ suite shared n ms body, s.eng.suite = some suite ∧ srtpLen p = some n ∧
      flat (ms ++ [⟨20, body⟩]) <+: s.eng.transcript ∧
      km = SrtpKeying (suites suite) shared (flat (ms ++ [⟨20, body⟩])) n ∧
      ∃ full pre pre0 post random group pub group' ours, FinOk (fill13 suites env) s.clientHs s full ∧
        full = pre ++ post ∧ HelloOk env s shared group' ours pre0 ∧
        At pre pre0 mtServerHello (env.serverHelloBody random suite group pub) ∧
        (Small group' ours → (group = group' ∧ pub = ours) ∨ Answered env s group' ours pre0) := by
  intro s
  obtain ⟨c1, x, n, ms, body, h1, h2, h3, _, h5, h6⟩ := server_exports hs cfg now auto hr cs km p hk
  have a := server_keying (env := fill13 suites env) cfg now auto hr cs
  obtain ⟨full, g1, ⟨shared, c2, pre, pre0, random, group, pub, post, group', ours, k1, k2, k3, k4,
    ⟨c, sv, hsec, k5, _, _, k6⟩, k7⟩, _⟩ :=
      (server_connected (fill13 suites env) cfg now auto cs).2 (told13 hk (a.imp_right And.left))
  obtain rfl : c1 = c2 := Option.some.inj (h1.symm.trans k2)
  obtain rfl : x = hsec := Option.some.inj (h2.symm.trans k6)
  have e3 : deriveHs (suites c1) shared pre = some (c, sv, x) := k5
  rw [handshake_secrets (hs _)] at e3
  have e4 : Handshake (suites c1) shared = x := (Prod.mk.inj (Prod.mk.inj (Option.some.inj e3)).2).2
  refine ⟨c1, shared, n, ms, body, h1, h3, h5, ?_, full, pre, pre0, post, random, group, pub, group', ours, g1, k1, k3,
    k4, k7⟩
  unfold SrtpKeying
  rw [e4]
  exact h6

end

end Verif.Props.Exported

import Verif.Props.Master12
import Verif.Props.Shake13
import Verif.Props.MsgDemo
/-!
# C74: the key exchange groups a client goes along with
-/
namespace Verif.Props.Groups
open Verif

/-! ## DTLS 1.3 -/

section
open Verif.E13 Verif.Props.Shake13
open Verif.E12 (outputs Call)

/-- **C74, DTLS 1.3.** The ServerHello of a connected client has a share in a configured group, or in the one of the
hybrid ClientHello. The secrets are made from it. -/
theorem client_group13 {env : PEnv} {cfg : Cfg} {hyb : Option (Nat × Nat)} {s0 : Ses CSt}
    (h0 : ClientStart env cfg hyb s0) (cs : List Call) :
    let r := run C13.role env s0 cs
    0 < (outputs r.1).count .connected + r.2.events.count .connected →
    ∃ body hello exts d group pub n shared pre, Got r.2 mtServerHello body ∧
      env.parseServerHello body = some ([], hello) ∧ hello.exts = some exts ∧ (51, d) ∈ exts ∧
      env.parseServerShare d = some (group, pub) ∧ (group ∈ env.groups ∨ hyb.map (·.2) = some group) ∧
      env.kxComplete n group pub = some shared ∧ SecretsFrom env r.2 hello.suite shared pre := by
  intro r hc
  obtain ⟨_, full, _, ⟨body, hello, exts, n, group, pub, shared, pre, h1, _, h3, _, _, _, _, h8, _, ⟨d, h10, h11⟩, h12,
    h13, h14⟩, _⟩ := (client_connected h0 cs).2 hc
  refine ⟨body, hello, exts, d, group, pub, n, shared, _, h1, h3, h8, h10, h11, ?_, h13, h14⟩
  rcases h12 with h | ⟨h, _⟩
  · exact .inr (by rw [h]; rfl)
  · exact .inl h

end

/-! ## DTLS 1.2 -/

section
open Verif.E12 Verif.Props.Master12

/-- A ServerKeyExchange with this group and share was consumed, and the master secret is made from it. -/
def Uses (env : PEnv) (s : Ses CSt) (group : Nat) : Prop :=
  ∃ cs seq body curve pub alg sig n z h m, s.eng.suite = some cs ∧ .consumed seq 12 body ∈ s.eng.log ∧
    env.parseServerKx cs body = some ([], .ecdh curve group pub (some (alg, sig))) ∧
    env.kxComplete n group pub = some z ∧ env.ems cs z h = some m ∧ s.eng.master = some m

/-- **C74, DTLS 1.2, in part.** The group a connected client uses is one of the provider's. It is a configured one if the
configuration leaves none of these out. Missing: that it is a configured one in any case, which is wrong
(`group_not_configured`). -/
theorem client_group12_partial {env : PEnv} {cfg : Cfg} {s0 : Ses CSt} (h : Shake12.Client.Begins env cfg s0)
    (hd : DecShort env.toEnv) (cs : List Call) :
    let r := run C12.role env s0 cs
    0 < (outputs r.1).count .connected + r.2.events.count .connected →
    (∃ suite, r.2.eng.suite = some suite ∧ Config.isPsk suite = true) ∨
    ∃ group, Uses env r.2 group ∧ group ∈ env.providerGroups ∧
      ((∀ g ∈ env.providerGroups, g ∈ env.groups) → group ∈ env.groups) := by
  intro r hc
  obtain ⟨suite, t, body, z, m, h1, h2, h3, h4, h5⟩ := (client_master h hd cs).1 hc
  rcases h3 with ⟨hp, _⟩ | ⟨_, ours, sent, ⟨pre, seq, ske, curve, group, pub, alg, sig, cr, sr, cert, n, g1, _, g2, _, _,
    _, _, g3, _, g4⟩, _⟩
  · exact .inl ⟨suite, h1, hp⟩
  · exact .inr ⟨group, ⟨suite, seq, ske, curve, pub, alg, sig, n, z, t, m, h1, g1, g2, g4, h4, h5⟩, g3, fun hs => hs _ g3⟩

/-! `process_ecdh_params` (`src/dtls12/context.rs:194-218`) looks for the group among those of the provider, not among
those of the configuration, and nobody looks at what was offered. -/

open Demo

/-- The application allows group 23 only; the provider has 29 as well. Messages are those of the code. -/
def narrow : PEnv := Msg12.codec { certEnv with groups := [23], providerGroups := [29, 23] } true [77, 78]

/-- A server with group 29 that does not look at the groups offered. -/
def peer : PEnv := { MsgDemo.cert12 with parseGroups := fun _ => some [29] }

/-- A client with configuration `narrow`, with that server. -/
def mixed (d : Duo) : Duo :=
  let (c1, ps, cl) := drain C12.role narrow 30 d.client
  let sv := (run S12.role peer d.server (ps.map .packet)).2
  let (c2, qs, sv) := drain S12.role peer 30 sv
  let cl := (run C12.role narrow cl (qs.map .packet)).2
  { client := cl, server := sv, cCalls := d.cCalls ++ c1 ++ qs.map .packet,
    sCalls := d.sCalls ++ ps.map .packet ++ c2 }

def narrowCalls : List Call :=
  (mixed (mixed (mixed { duo0 peer with
    client := (call C12.role narrow (C12.start narrow cfg 0) (.timeout 0)).2 }))).cCalls ++ List.replicate 6 (.poll 2000)

/-- Whether the log has a ServerKeyExchange in the group. -/
def names (env : PEnv) (suite group : Nat) : Ev → Bool
  | .consumed _ 12 body =>
    match env.parseServerKx suite body with
    | some ([], .ecdh _ g _ _) => g == group
    | _ => false
  | _ => false

/-- **C74, DTLS 1.2.** The client connects with a key exchange in group 29, which its configuration excludes: the
supported_groups extension of its ClientHello, at byte 69, has 23 alone. -/
theorem group_not_configured :
    let r : List Ret × Ses CSt := run C12.role narrow (C12.start narrow cfg 0) narrowCalls
    (outputs r.1).count .connected = 1 ∧ r.2.st = .awaitApplicationData ∧ 29 ∉ narrow.groups ∧
    (packets r.1).head?.map (fun p => (p.drop 69).take 8) = some [0, 10, 0, 4, 0, 2, 0, 23] ∧
    (r.2.eng.log.filter (fun e => match e with | .consumed _ 12 _ => true | _ => false)).map
      (names narrow 0xC02B 29) = [true] := by
  decide +kernel

end

end Verif.Props.Groups

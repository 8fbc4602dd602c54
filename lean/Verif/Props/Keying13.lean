import Verif.Props.AgreeServer13
import Verif.Props.Demo13
/-!
# Exported SRTP keying material, DTLS 1.3 (C64)
-/
namespace Verif.Props.Agree13
open Verif Wire Window Timer Aead M E13
open Verif.E12 (Call Event Output eventOutput outputs)

/-- The ways in which a client begins: by itself, or after a hybrid ClientHello that is in the transcript
as one message. -/
inductive Begins (env : PEnv) (cfg : Cfg) : Ses CSt → Prop
  | plain (now : Nat) : Begins env cfg (C13.start env cfg now)
  | hybrid (random body : Bytes) (kx : Nat × Nat) (now : Nat) :
      Begins env cfg (C13.startHybrid env cfg random (flat [⟨1, body⟩]) kx now)

theorem Begins.right {env : PEnv} {cfg : Cfg} {s0 : Ses CSt} (h : Begins env cfg s0)
    (hr : ∀ n, (env.rand n 32).length = 32) (cs : List Call) :
    Right C13.role env (Client.Stage env) (Client.Done env) (outputs (run C13.role env s0 cs).1)
      (run C13.role env s0 cs).2 := by
  have h0 : Right C13.role env (Client.Stage env) (Client.Done env) [] s0 := by
    cases h with
    | plain now => exact ⟨⟨rfl, [], rfl, nofun⟩, .inl rfl⟩
    | hybrid random body kx now => exact ⟨⟨rfl, [⟨1, body⟩], rfl, fun _ _ => trivial⟩, .inl rfl⟩
  have := ((Client.plan.induct (C13.tail env) hr).run [] cs s0 h0).1
  rw [List.nil_append] at this
  exact this

theorem server_right {env : PEnv} (cfg : Cfg) (now : Nat) (auto : Bool)
    (hr : ∀ n, (env.rand n 32).length = 32) (cs : List Call) :
    Right S13.role env (Server.Stage env) (Server.Done env)
      (outputs (run S13.role env (S13.start env cfg now auto) cs).1)
      (run S13.role env (S13.start env cfg now auto) cs).2 := by
  have h0 : Right S13.role env (Server.Stage env) (Server.Done env) [] (S13.start env cfg now auto) :=
    ⟨⟨⟨[], rfl, nofun⟩, nofun, nofun, nofun⟩, .inl rfl⟩
  have := ((Server.plan.induct (S13.tail env) hr).run [] cs _ h0).1
  rw [List.nil_append] at this
  exact this

/-- **C64, client.** Connected and keying material, reported and still to be: nothing; or Connected alone, and
then suite, SRTP profile and exporter secret give no keying material; or Connected and then the one keying
material that they give, with that profile. The exporter secret is the one derived from the handshake secret
and the messages up to the server's Finished, which was accepted. -/
theorem client_keying {env : PEnv} {cfg : Cfg} {s0 : Ses CSt} (h : Begins env cfg s0)
    (hr : ∀ n, (env.rand n 32).length = 32) (cs : List Call) :
    let r := run C13.role env s0 cs
    story (outputs r.1) r.2 = [] ∨ Announced env r.2 (story (outputs r.1) r.2) ∧
      ∃ ms body, Keyed env r.2 (flat (ms ++ [⟨20, body⟩])) ∧ flat (ms ++ [⟨20, body⟩]) <+: r.2.eng.transcript := by
  refine (h.right hr cs).2.imp_right fun ⟨_, h2, h3⟩ => ⟨h3, ?_⟩
  obtain ⟨v, ms, _, _, body, _, _, _, _, _, h6, h7⟩ := h2.took
  exact ⟨ms, body, h7 rfl, h6⟩

/-- **C64, server.** The same; the server's Finished was sent. -/
theorem server_keying {env : PEnv} (cfg : Cfg) (now : Nat) (auto : Bool)
    (hr : ∀ n, (env.rand n 32).length = 32) (cs : List Call) :
    let r := run S13.role env (S13.start env cfg now auto) cs
    story (outputs r.1) r.2 = [] ∨ Announced env r.2 (story (outputs r.1) r.2) ∧
      ∃ ms body, Keyed env r.2 (flat (ms ++ [⟨20, body⟩])) ∧ flat (ms ++ [⟨20, body⟩]) <+: r.2.eng.transcript := by
  refine (server_right cfg now auto hr cs).2.imp_right fun ⟨_, h2, h3⟩ => ⟨h3, ?_⟩
  obtain ⟨v, ms, _, _, _, _, _, _, h6, h7⟩ := h2.said
  exact ⟨ms, v, h7 rfl, h6⟩

end Verif.Props.Agree13

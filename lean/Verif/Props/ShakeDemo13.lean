import Verif.Props.ShakeServer13
/-!
# DTLS 1.3 handshakes that complete (C17, C41, C44), and a client without a certificate (C42)
-/
namespace Verif.Props.Shake13
open Verif Wire Window Timer Aead M E13 E13.Demo
open Verif.E12 (Call Output outputs)

/-! ## Cases for the theorems of `Shake13` and `ShakeServer13` -/

/-- A client and a server without cookies and client certificates report Connected. -/
example : (outputs (clientRun plainEnv []).1).count .connected = 1 := by decide +kernel
example : (outputs (serverRun plainEnv []).1).count .connected = 1 := by decide +kernel

/-- So do a client and a server with both. -/
example : (outputs (clientRun fullEnv []).1).count .connected = 1 := by decide +kernel
example : (outputs (serverRun fullEnv []).1).count .connected = 1 := by decide +kernel
example : ((serverRun fullEnv []).2 : Ses SSt).peerCerts = [[77, 78]] := by decide +kernel

/-- No call of these runs panics, and they end in the state for application data. -/
example : (∀ x ∈ (clientRun fullEnv []).1, ¬ Stops x) ∧
    ((clientRun fullEnv []).2 : Ses CSt).st ∉ [CSt.sendClientHello, .awaitServerHello, .closed] := by
  decide +kernel
example : (∀ x ∈ (serverRun fullEnv []).1, ¬ Stops x) ∧
    ((serverRun fullEnv []).2 : Ses SSt).st ∉ [SSt.awaitClientHello, .sendServerHello, .closed] := by
  decide +kernel

/-! ## C42: a client without a certificate -/

/-- A client that has no certificate. -/
def bareEnv : PEnv := { fullEnv with hasCert := false }

/-- What the server is called with. -/
def bareCalls : List Call := (rounds bareEnv fullEnv 4).sCalls

/-- **C42 fails.** A server that requires a client certificate reports Connected to a client that sent
an empty certificate list: `await_certificate` (`src/dtls13/server.rs:965-973`) only skips the
CertificateVerify then. -/
theorem no_certificate_connects :
    fullEnv.requireClientCert = true ∧
    (outputs (run S13.role fullEnv (S13.start fullEnv cfg 0 false) bareCalls).1).count .connected = 1 ∧
    ((run S13.role fullEnv (S13.start fullEnv cfg 0 false) bareCalls).2 : Ses SSt).peerCerts = [] := by
  decide +kernel

/-- **C42, the part that holds.** A server that requires a client certificate and reports Connected has
received a Certificate message; if the list in it is not empty, the client has signed the transcript with
the key of its first certificate. Missing: the list may be empty. -/
theorem client_certificate_partial (env : PEnv) (cfg : Cfg) (now : Nat) (auto : Bool)
    (hq : env.requireClientCert = true) (cs : List Call) :
    let r := run S13.role env (S13.start env cfg now auto) cs
    .connected ∈ outputs r.1 → ∃ body ctx certs, Got r.2 mtCertificate body ∧
      env.parseCertificate body = some ([], (ctx, certs)) ∧ r.2.peerCerts = certs ∧
      (certs ≠ [] → ∃ pre, CvOk env clientContext r.2 pre) := by
  intro r h
  have h1 : 0 < (outputs r.1).count .connected + r.2.events.count .connected :=
    Nat.lt_of_lt_of_le (List.count_pos_iff.mpr h) (Nat.le_add_right ..)
  obtain ⟨pre, _, _, h2⟩ := (server_connected env cfg now auto cs).2 h1
  rcases h2 with ⟨h2, h3⟩ | ⟨⟨body, ctx, certs, h2, h3, h4, h5⟩, h6⟩
  · obtain ⟨body, ctx, h3, h4⟩ := h3 hq
    exact ⟨body, ctx, [], h3, h4, h2, fun h => absurd rfl h⟩
  · exact ⟨body, ctx, certs, h2, h3, h5, fun _ => ⟨pre, h6⟩⟩

end Verif.Props.Shake13

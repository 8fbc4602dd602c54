import Verif.Props.Cookie12
import Verif.Props.Demo12
/-!
# Handshakes that complete (C40, C44), a client without a certificate (C42), cookies (C43)
-/
namespace Verif.Props.Shake12
open Verif Wire Window Timer Aead M E12 Demo

/-! ## Cases for the theorems of `Shake12`, `ShakeServer12` and `Cookie12` -/

/-- A PSK client and a PSK server with cookies report Connected. -/
example : (outputs (clientRun pskEnv []).1).count .connected = 1 := by decide +kernel
example : (outputs (serverRun pskEnv []).1).count .connected = 1 := by decide +kernel

/-- So do a client and a server with certificates. -/
example : (outputs (clientRun certEnv []).1).count .connected = 1 := by decide +kernel
example : (outputs (serverRun certEnv []).1).count .connected = 1 := by decide +kernel
example : ((serverRun certEnv []).2 : Ses SSt).peerCerts ≠ [] := by decide +kernel

/-- After the first flight the server still waits, and has answered. -/
example : ((rounds pskEnv 1).server : Ses SSt).st = .awaitClientHello ∧
    (rounds pskEnv 1).server.eng.log.any Ev.isSend = true := by decide +kernel

/-! ## C43: the reply is not stateless -/

/-- A ClientHello without a cookie. -/
def helloDatagram : Bytes :=
  [22, 254, 253, 0, 0, 0, 0, 0, 0, 0, 0, 0, 45, 1, 0, 0, 33, 0, 0, 0, 0, 0, 0, 0, 33, 32] ++
    List.replicate 31 0 ++ [1]

/-- The server is given that datagram only. -/
def cookieless : List Ret × Ses SSt :=
  run S12.role pskEnv (S12.start pskEnv cfg 0)
    [.timeout 0, .packet helloDatagram, .poll 2000, .timeout 1, .timeout 1000000001, .poll 2000]

/-- **C43, as stated, fails.** A ClientHello without a cookie makes the server keep its HelloVerifyRequest
and send it again when its timer fires, with no further datagram from the client: one datagram in, two
datagrams out. -/
theorem hello_verify_resent :
    (Demo.packets cookieless.1).length = 2 ∧ cookieless.2.st = .awaitClientHello := by
  decide +kernel

/-! ## C42: a client without a certificate -/

/-- A client that answers the CertificateRequest with an empty list and does not sign. -/
def bareRole : Role :=
  { C12.role with
    step := fun env (st : CSt) =>
      if (st : CSt) = CSt.sendClientKeyExchange then do
        M.modify fun s => { s with certificateVerify := false }
        C12.role.step env st
      else C12.role.step env st }

def bareEnv : PEnv := { certEnv with certificateBody := [] }

/-- Let the bare client talk, then the server. -/
def bareRound (d : Duo) : Duo :=
  let (c1, ps, cl) := drain bareRole bareEnv 30 d.client
  let sv := (run S12.role certEnv d.server (ps.map .packet)).2
  let (c2, qs, sv) := drain S12.role certEnv 30 sv
  let cl := (run bareRole bareEnv cl (qs.map .packet)).2
  { client := cl, server := sv, cCalls := d.cCalls ++ c1 ++ qs.map .packet,
    sCalls := d.sCalls ++ ps.map .packet ++ c2 }

/-- What the server is called with. -/
def bareCalls : List Call := (bareRound (bareRound (bareRound (duo0 certEnv)))).sCalls

/-- **C42 fails.** A server that requires a client certificate reports Connected to a client that sent
an empty certificate list: `await_certificate` (`src/dtls12/server.rs:714-727`) only skips the
CertificateVerify then. -/
theorem no_certificate_connects :
    certEnv.requireClientCert = true ∧
    (outputs (run S12.role certEnv (S12.start certEnv cfg 0) bareCalls).1).count .connected = 1 ∧
    ((run S12.role certEnv (S12.start certEnv cfg 0) bareCalls).2 : Ses SSt).peerCerts = [] := by
  decide +kernel

/-- **C42, the part that holds.** A server that requires a client certificate and reports Connected under
a certificate suite has received a Certificate message; if the list in it is not empty, the client has
signed the transcript with the key of its first certificate. Missing: the list may be empty. -/
theorem client_certificate_partial (env : PEnv) (c : Cfg) (now : Nat) (hd : DecShort env.toEnv)
    (hq : env.requireClientCert = true) (cs : List Call) :
    let r := run S12.role env (S12.start env c now) cs
    0 < (outputs r.1).count .connected → ∃ suite, r.2.eng.suite = some suite ∧
      (Config.isPsk suite = true ∨ ∃ body, Got r.2 mtCertificate body ∧
        env.parseCertificate body = some ([], r.2.peerCerts) ∧ CvOk env r.2) := by
  intro r h
  have d := (server_connected env c now hd cs).2 (Nat.lt_of_lt_of_le h (Nat.le_add_right _ _))
  obtain ⟨su, h1, h2 | h2 | ⟨b, h2, h3⟩⟩ := d.asked
  · exact ⟨su, h1, .inl h2⟩
  · rw [hq] at h2; cases h2
  · exact ⟨su, h1, .inr ⟨b, h2, h3, d.cv⟩⟩

end Verif.Props.Shake12

import Verif.Props.Msg13
import Verif.Props.Demo12
import Verif.Props.Demo13
/-!
# Whole handshakes with the message codecs of the code (C57)

The toy environments of `Demo12` and `Demo13`, with their toy parsers and serialisers replaced by the
modelled ones.
-/
namespace Verif.Props.MsgDemo
open Verif
open Verif.E12 (outputs)

/-- DTLS 1.2 with certificates. -/
def cert12 : E12.PEnv :=
  { Msg12.codec { E12.Demo.certEnv with srtpKeys := fun _ p _ _ _ => some [UInt8.ofNat p] } true [77, 78] with
    srtpKeys := fun _ p _ _ _ => some [UInt8.ofNat p] }

/-- DTLS 1.2 with a pre-shared key and cookies. -/
def psk12 : E12.PEnv := Msg12.codec E12.Demo.pskEnv false []

/-- DTLS 1.3 with cookies and client certificates. -/
def full13 : E13.PEnv :=
  Msg13.codec { E13.Demo.fullEnv with verifyData := fun _ s t => some (List.replicate 32 (E12.Demo.sum (s ++ t))) }
    150 [77, 78]

/-- Client and server with certificates report Connected. -/
theorem cert12_completes :
    (outputs (E12.Demo.clientRun cert12 []).1).count .connected = 1
    ∧ (outputs (E12.Demo.serverRun cert12 []).1).count .connected = 1
    ∧ (E12.Demo.serverRun cert12 []).2.peerCerts = [[77, 78]] := by decide +kernel

/-- So do those with a pre-shared key. -/
theorem psk12_completes :
    (outputs (E12.Demo.clientRun psk12 []).1).count .connected = 1
    ∧ (outputs (E12.Demo.serverRun psk12 []).1).count .connected = 1 := by decide +kernel

/-- So do those of DTLS 1.3. -/
theorem full13_completes :
    (outputs (E13.Demo.clientRun full13 []).1).count .connected = 1
    ∧ (outputs (E13.Demo.serverRun full13 []).1).count .connected = 1
    ∧ (E13.Demo.serverRun full13 []).2.peerCerts = [[77, 78]] := by decide +kernel

/-- These environments meet the hypotheses of `client_hello_sent` and `client_hello_sent_partial`. -/
example : (∀ x ∈ cert12.allowed, x ∈ [0xC02C, 0xC02B, 0xCCA9, 0xC0A8])
    ∧ cert12.allowed.filter cert12.compatible ≠ []
    ∧ (∀ g ∈ cert12.groups, g ∈ [0x001D, 0x0017, 0x0018, 0x0019]) ∧ cert12.groups.length ≤ 4 := by decide
example : (∀ x ∈ full13.allowed, x ∈ [0x1301, 0x1302, 0x1303]) ∧ full13.allowed ≠ []
    ∧ (∀ g ∈ full13.groups, g ∈ [0x001D, 0x0017, 0x0018, 0x0019]) ∧ full13.groups.length ≤ 4
    ∧ 29 ∈ full13.groups ∧ 150 < 65603 + 2 * (full13.allowed.take 3).length := by decide

end Verif.Props.MsgDemo

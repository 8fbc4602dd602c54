import Verif.Props.Demo13
import Verif.Props.Cookie12
import Verif.Props.Cookie13
/-!
# C70: a ClientHello from elsewhere and the client that comes after it

With cookies a server is meant to forget a ClientHello without cookie. `Shake12.cookie_first_partial` and
`Shake13.cookie_first_partial` show that it goes on waiting. Here: it counts.
-/
namespace Verif.Props.Spoof

namespace V12
open Verif Verif.E12 Verif.E12.Demo Wire

/-- The first datagram of the client, and a ClientHello without cookie and with another random: the body of a
ClientHello in `Demo` is the length of the random and the random, bytes 26 to 57. -/
def hello : Bytes := ((drain C12.role pskEnv 30 (duo0 pskEnv).client).2.1).headD []
def spoofed : Bytes := hello.dropLast ++ [7]

/-- Both are told the time and talk for a while. -/
def tick (d : Duo) (t : Nat) : Duo :=
  let c := Call.timeout (t * 1000000000)
  let r := round pskEnv
  r (r (r { d with
    client := (call C12.role pskEnv d.client c).2, server := (call S12.role pskEnv d.server c).2
    cCalls := d.cCalls ++ [c], sCalls := d.sCalls ++ [c] }))

/-- A server that was given datagrams from elsewhere first, and a client, for 41 seconds. Nothing is lost. -/
def after (first : List Bytes) : Duo :=
  let d := duo0 pskEnv
  let cs := first.map Call.packet
  [1, 3, 7, 15, 31, 41].foldl tick
    (round pskEnv (round pskEnv { d with
      server := (run S12.role pskEnv d.server cs).2, sCalls := d.sCalls ++ cs }))

/-- What the client's application sees. -/
def seen (first : List Bytes) : List Ret := (run C12.role pskEnv (C12.start pskEnv cfg 0) (after first).cCalls).1

/-- **C70 fails.** One ClientHello without cookie from elsewhere, and the client that comes after it cannot connect:
the server takes its ClientHello for a repetition and answers with the cookie of the other one, and then counts
the next one as a third. -/
theorem hello_blocks :
    pskEnv.useCookie = true ∧ .connected ∉ outputs (seen [spoofed]) ∧ .res (.err .timeoutConnect) ∈ seen [spoofed] ∧
      (after [spoofed]).server.st = .awaitClientHello := by decide +kernel

/-- The two differ in the random only. -/
theorem spoofed_random :
    spoofed.length = hello.length ∧ spoofed.take 26 = hello.take 26 ∧ spoofed.drop 58 = hello.drop 58 ∧
      spoofed ≠ hello := by decide +kernel

/-- Without it, or with a copy of its own ClientHello in its place, the same client connects. -/
theorem alone_connects : .connected ∈ outputs (seen []) ∧ .connected ∈ outputs (seen [hello]) := by decide +kernel

end V12

namespace V13
open Verif Verif.E13 Verif.E13.Demo Wire
open Verif.E12 (outputs Call Ret)

def hello : Bytes := ((drain C13.role fullEnv 30 (duo0 fullEnv fullEnv).client).2.1).headD []
def spoofed : Bytes := hello.set 30 7

def tick (d : Duo) (t : Nat) : Duo :=
  let c := Call.timeout (t * 1000000000)
  let r := round fullEnv fullEnv
  r (r (r { d with
    client := (call C13.role fullEnv d.client c).2, server := (call S13.role fullEnv d.server c).2
    cCalls := d.cCalls ++ [c], sCalls := d.sCalls ++ [c] }))

def after (first : List Bytes) : Duo :=
  let d := duo0 fullEnv fullEnv
  let cs := first.map Call.packet
  let r := round fullEnv fullEnv
  [1, 3, 7, 15, 31, 41].foldl tick
    (r (r { d with server := (run S13.role fullEnv d.server cs).2, sCalls := d.sCalls ++ cs }))

def seen (first : List Bytes) : List Ret := (run C13.role fullEnv (C13.start fullEnv cfg 0) (after first).cCalls).1
def serverSeen (first : List Bytes) : List Ret :=
  (run S13.role fullEnv (S13.start fullEnv cfg 0 false) (after first).sCalls).1

/-- **C70 fails.** The same in DTLS 1.3; here the server even reports an error when the client comes with the cookie
it was given. -/
theorem hello_blocks :
    fullEnv.useCookie = true ∧ .connected ∉ outputs (seen [spoofed]) ∧
      .res (.err .timeoutConnect) ∈ seen [spoofed] ∧ .res (.err .security) ∈ serverSeen [spoofed] := by
  decide +kernel

theorem spoofed_random :
    spoofed.length = hello.length ∧ spoofed.take 26 = hello.take 26 ∧ spoofed.drop 58 = hello.drop 58 ∧
      spoofed ≠ hello := by decide +kernel

theorem alone_connects : .connected ∈ outputs (seen []) ∧ .connected ∈ outputs (seen [hello]) := by decide +kernel

end V13
end Verif.Props.Spoof

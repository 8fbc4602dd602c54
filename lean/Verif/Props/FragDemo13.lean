import Verif.Props.Frag13

/-!
# Fragmentation and reassembly, DTLS 1.3: concrete cases and counterexamples (C10, C11, C14, C22)
-/

namespace Verif.Props.Frag13

open Verif Verif.Wire Verif.E13
open Verif.Props.Frag12 (pos)

/-! ## Concrete cases -/

/-- Feed datagrams to an engine; `none` if one of them fails. -/
def feed (env : Env) : List Bytes → Eng → Option Eng
  | [], s => some s
  | p :: rest, s => match parsePacket env p s with
    | (.ok (), s') => feed env rest s'
    | _ => none

def demoEnv : Env := Demo.plainEnv.toEnv
def receiver : Eng := Eng.new demoEnv { Demo.cfg with maxRx := 100 } true
def longBody (n : Nat) : Bytes := (List.range n).map UInt8.ofNat

/-- A datagram with one plaintext handshake record. -/
def dgram (n : Nat) (fs : List Bytes) : Bytes := serializePlain13 ctHandshake 0 n fs.flatten.length fs.flatten

/-- A fragment of an EncryptedExtensions message with 8 bytes. -/
def frag (off n : Nat) : Bytes := fragmentBytes 8 0 (longBody 8) off n

/-- Overlapping pieces in the wrong order, one of them twice, then the message is handed out. -/
example :
    (feed demoEnv [dgram 0 [frag 5 3], dgram 1 [frag 2 5], dgram 2 [frag 5 3], dgram 3 [frag 0 4]] receiver).map
      (fun r => (r.rx.length, (nextHandshake demoEnv 8 r).2.log.head?))
        = some (3, some (.taken 0 8 (longBody 8))) := by decide +kernel

/-- A piece, then the whole message, which replaces it. -/
example :
    (feed demoEnv [dgram 0 [frag 0 3], dgram 1 [frag 0 8]] receiver).map
      (fun r => (r.rx.length, (nextHandshake demoEnv 8 r).2.log.head?))
        = some (1, some (.taken 0 8 (longBody 8))) := by decide +kernel

/-- **C11 fails.** The first four bytes, then the message as a peer that fragments anew sends it: six bytes and
the last two. Everything has arrived, but the longer piece is dropped because one with the same offset is there
already, and it will be dropped each time it is retransmitted. -/
theorem refragmented_stalls :
    Frag12.covers 8 [(0, 4), (0, 6), (6, 2)] = true ∧
    (feed demoEnv [dgram 0 [frag 0 4], dgram 1 [frag 0 6], dgram 2 [frag 6 2], dgram 3 [frag 0 6]] receiver).map
      (fun r => (r.rx.length, hasComplete r 8)) = some (2, false) := by decide +kernel

/-- **C14 fails (DTLS 1.3).** Messages 0 and 2 in one datagram and message 1 in the next: all three have
arrived, but after message 0 the queue shows message 2 first, and message 1 is never found, not even when it
is sent again. -/
theorem packing_stalls :
    (feed demoEnv
        [dgram 0 [fragmentBytes 8 0 (longBody 4) 0 4, fragmentBytes 15 2 (longBody 4) 0 4],
         dgram 1 [fragmentBytes 11 1 (longBody 4) 0 4]] receiver).bind (fun r =>
      let r1 := (M.bind (nextHandshake demoEnv 8) (fun _ => advancePeerSeq) r).2
      (feed demoEnv [dgram 2 [fragmentBytes 11 1 (longBody 4) 0 4]] (purge r1)).map fun r2 =>
        (r1.peerSeq, hasComplete r1 11, hasComplete r2 11)) = some (1, false, false) := by
  decide +kernel

/-- **C11 fails** for messages in more than 50 pieces: a message of 52 bytes arrives in 52 pieces, all of them are
received in order without error, and the message is never complete. With 51 pieces in few records it counts
as complete but cannot be taken, and the fragments stay. -/
theorem too_many_fragments :
    ((feed demoEnv ((List.range 52).map fun i => dgram i [fragmentBytes 8 0 (longBody 52) i 1]) receiver).map
      fun r => (r.rx.length, hasComplete r 8)) = some (52, false) ∧
    ((feed demoEnv ((List.range 17).map fun i => dgram i [fragmentBytes 8 0 (longBody 51) (3 * i) 1,
        fragmentBytes 8 0 (longBody 51) (3 * i + 1) 1, fragmentBytes 8 0 (longBody 51) (3 * i + 2) 1]) receiver).map
      fun r => (r.rx.length, hasComplete r 8, (nextHandshake demoEnv 8 r).1, decide ((nextHandshake demoEnv 8 r).2 = r)))
        = some (17, true, .fail .transient, true) := by decide +kernel

/-- A flight meeting the hypotheses of `flight_consumed_partial`: an EncryptedExtensions message in overlapping
pieces, one of them later whole, and an empty CertificateVerify. -/
def flight : List Msg := [⟨8, longBody 8⟩, ⟨15, []⟩]

def piece (t : UInt8) (q : Nat) (body : Bytes) (off n : Nat) : Hs :=
  ⟨⟨t, body.length, q, off, n⟩, (body.drop off).take n, false⟩

def pieces : List Hs :=
  [piece 15 1 [] 0 0, piece 8 0 (longBody 8) 3 5, piece 8 0 (longBody 8) 0 4, piece 8 0 (longBody 8) 3 5,
   piece 8 0 (longBody 8) 0 8, piece 8 0 (longBody 8) 0 4]

def rxOf (n : Nat) (h : Hs) : Rx :=
  { buffer := [], rcd := { ctype := ctHandshake, epoch := 0, seq := n, length := 0, fragment := [], headerLen := 13 },
    hss := [h], handled := false, opened := false }

instance (t : UInt8) (q : Nat) (body : Bytes) (h : Hs) : Decidable (Piece t q body h) := by
  unfold Piece; infer_instance

/-- Decidable form of `Of` for the flight above. -/
theorem of_flight : ∀ h ∈ pieces, Of 0 flight h := by
  intro h hh
  have : ∀ h ∈ pieces, Piece 8 0 (longBody 8) h ∨ Piece 15 1 [] h := by decide
  rcases this h hh with hp | hp
  · exact ⟨0, _, rfl, hp⟩
  · exact ⟨1, _, rfl, hp⟩

example : ∃ s1 bs s', arrivals demoEnv (pieces.map fun h => [rxOf 0 h]) receiver = (.ok (), s1)
      ∧ consumeAll demoEnv [8, 15] s1 = (.ok bs, s')
      ∧ (s'.log.filterMap fun | .taken q t b => some (q, t, b) | _ => none) = [(1, 15, []), (0, 8, longBody 8)] := by
  have hcar : ∀ x, (∃ rs ∈ pieces.map (fun h => [rxOf 0 h]), Carries x rs) ↔ x ∈ pieces := by
    intro x
    constructor
    · rintro ⟨rs, hrs, hx⟩
      obtain ⟨y, hy, rfl⟩ := List.mem_map.1 hrs
      rwa [hx.unique ⟨_, rfl, rfl⟩]
    · intro hx
      exact ⟨_, List.mem_map_of_mem hx, _, rfl, rfl⟩
  obtain ⟨s1, bs, s', h1, h2, _, h4, _⟩ := flight_consumed_partial (env := demoEnv) (s := receiver) (ms := flight)
    (ds := pieces.map fun h => [rxOf 0 h]) (ps := [(0, 0), (0, 3), (1, 0)])
    Recv12.search_ok_demo rfl rfl (by decide) (by decide)
    (fun q => Nat.le_trans (List.length_filter_le ..) (by decide))
    (by
      intro rs hrs
      obtain ⟨h, hh, rfl⟩ := List.mem_map.1 hrs
      refine ⟨h, ⟨_, rfl, rfl⟩, ?_, of_flight h hh, ?_⟩
      · exact (by decide : ∀ h ∈ pieces, h.handled = false) h hh
      · exact (by decide : ∀ h ∈ pieces, pos h ∈ [(0, 0), (0, 3), (1, 0)]) h hh)
    (by
      intro x y hx hy he
      rw [hcar] at hx hy
      exact (by decide : ∀ x ∈ pieces, ∀ y ∈ pieces, pos x = pos y → x = y ∨ Whole x ∨ Whole y) x hx y hy he)
    (by
      intro i m hi
      match i with
      | 0 =>
        cases hi
        refine ⟨[piece 8 0 (longBody 8) 3 5, piece 8 0 (longBody 8) 0 4], ⟨by simp, by decide⟩, ?_⟩
        intro x hx
        rw [hcar]
        exact (by decide : ∀ x ∈ [piece 8 0 (longBody 8) 3 5, piece 8 0 (longBody 8) 0 4],
          x.header.messageSeq = receiver.peerSeq + 0 ∧ x ∈ pieces) x hx
      | 1 =>
        cases hi
        refine ⟨[piece 15 1 [] 0 0], ⟨by simp, by intro i hi; cases hi⟩, ?_⟩
        intro x hx
        rw [hcar]
        exact (by decide : ∀ x ∈ [piece 15 1 [] 0 0],
          x.header.messageSeq = receiver.peerSeq + 1 ∧ x ∈ pieces) x hx
      | i + 2 => simp [flight] at hi)
    (by
      intro m hm
      rcases List.mem_cons.1 hm with rfl | hm
      · exact ⟨_, rfl⟩
      · rw [List.mem_singleton.1 hm]; exact ⟨_, rfl⟩)
  exact ⟨s1, bs, s', h1, h2, h4⟩

/-- A ServerHello of 200 bytes at an MTU of 64, created behind another message: it goes out in 6 pieces. -/
example : ((M.bind (createHandshake demoEnv 1 (longBody 3)) (fun _ => createHandshake demoEnv 2 (longBody 200))
      (Eng.new demoEnv { Demo.cfg with mtu := 64 } false)).1,
    (M.bind (createHandshake demoEnv 1 (longBody 3)) (fun _ => createHandshake demoEnv 2 (longBody 200))
      (Eng.new demoEnv { Demo.cfg with mtu := 64 } false)).2.saved.length) = (.ok (), 7) := by decide +kernel

/-- Without the bound on the MTU fragmentation does not end by itself: no bytes fit, and empty fragments are created
until the array of saved records overflows. -/
example : ((createHandshake demoEnv 2 (longBody 3)
    (Eng.new demoEnv { Demo.cfg with mtu := 25 } false)).1,
    (createHandshake demoEnv 2 (longBody 3)
      (Eng.new demoEnv { Demo.cfg with mtu := 25, maxTx := 100 } false)).2.saved.length) = (.fail (.fatal .transmitQueueFull), 12) := by
  decide +kernel

/-! ## Messages too long to be saved -/

/-- The toy environment with a certificate chain of `n` bytes. -/
def bigEnv (n : Nat) : PEnv :=
  { Demo.env [29] false false with
    certificateBody := fun ctx => UInt8.ofNat ctx.length :: (ctx ++ List.replicate n 7) }

/-- MTU and queue sizes that `Config` has by default. -/
def defaultCfg : Cfg := { Demo.cfg with mtu := 1150, maxRx := 30, maxTx := 10 }

/-- The first calls of a server, up to the ClientHello. -/
def helloCalls : List E12.Call := (Demo.rounds Demo.plainEnv Demo.plainEnv 1).sCalls.take 2

/-- A server with a certificate chain of `n` bytes receives a ClientHello. -/
def bigRun (n : Nat) : List E12.Ret :=
  (run S13.role (bigEnv n) (S13.start (bigEnv n) defaultCfg 0 false) helloCalls).1

/-- **C22 and C10 fail.** A server with the default MTU and queue sizes and a certificate chain of 10000 bytes
panics when it receives a ClientHello: at most 12 records of a flight can be saved. With 100 bytes it
answers. -/
theorem big_message_panics :
    bigRun 10000 = [.res .ok, .res .panic] ∧ bigRun 100 = [.res .ok, .res .ok] := by
  decide +kernel

end Verif.Props.Frag13

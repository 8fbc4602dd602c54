import Verif.Lemmas.Expire13
import Verif.Props.ShakeServer13
import Verif.Props.Demo12
/-!
# C31, C32, C53, C55: deadlines of DTLS 1.3 sessions, over whole executions
-/
namespace Verif.Props.Timer13
open Verif Wire Timer E13 Props.Shake13
open Verif.E12 (Call Output Ret ApiRes outputs)

/-- The instant of the first `handle_timeout`. -/
def firstTimeout : List Call → Option Nat
  | [] => none
  | .timeout n :: _ => some n
  | _ :: cs => firstTimeout cs

/-- What a connect timer that nothing stops is after the calls. -/
theorem clock_eq (cfg : Cfg) (cs : List Call) :
    cs.foldl (fun x c => afterCall c x) (cfg, .unarmed) =
      (cfg, match firstTimeout cs with | none => .unarmed | some t => .armed (t + cfg.handshakeTimeout)) := by
  have armed : ∀ (cs : List Call) t, cs.foldl (fun x c => afterCall c x) (cfg, Timeout.armed t) = (cfg, .armed t) := by
    intro cs t
    induction cs with
    | nil => rfl
    | cons c cs ih => cases c <;> exact ih
  induction cs with
  | nil => rfl
  | cons c cs ih =>
    cases c with
    | timeout n => exact armed cs _
    | _ => exact ih

theorem client_clock {env : PEnv} {cfg : Cfg} {hyb : Option (Nat × Nat)} {s0 : Ses CSt}
    (h0 : ClientStart env cfg hyb s0) : s0.eng.ck = (cfg, .unarmed) := by cases h0 <;> rfl

theorem server_kept {env : PEnv} (cfg : Cfg) (now : Nat) (auto : Bool) :
    S13.Kept env (cfg, .unarmed) (S13.start env cfg now auto) where
  cfg := rfl
  off := nofun
  auth _ := ⟨rfl, nofun, nofun, nofun⟩
  run _ _ := rfl

/-- An expired connect timer makes the call fail. -/
theorem timeout_fires {R : Role} {env : PEnv} (s : Ses R.St) (n t : Nat) (h : s.eng.timers.connect = .armed t)
    (ht : t ≤ n) : (call R env s (.timeout n)).1 = .res (.err .timeoutConnect) := by
  have e2 : (noteTime R env n s).eng.timers.connect = .armed t :=
    Eq.trans (congrArg Prod.snd (noteTime_ck (R := R) (env := env) n s)) h
  have h1 := handleTimeout_fires env.toEnv (noteTime R env n s).eng n t e2 ht
  have h2 : (handleTimeoutM R env n s).1 = .fail (.fatal .timeoutConnect) := by
    unfold handleTimeoutM
    simp only [M.bind_eq]
    change (M.bind (onEng (handleTimeout env.toEnv n)) (fun _ => progress R env progressFuel)
      (noteTime R env n s)).1 = _
    generalize noteTime R env n s = s1 at h1
    unfold M.bind
    have h3 : ((onEng (handleTimeout env.toEnv n) : P R.St Unit) s1).1 = .fail (.fatal .timeoutConnect) := h1
    generalize (onEng (handleTimeout env.toEnv n) : P R.St Unit) s1 = x at h3
    obtain ⟨r, s'⟩ := x
    cases h3
    rfl
  show Ret.res (E12.toApi (handleTimeoutM R env n s).1) = _
  rw [h2]; rfl

/-- **C31, client.** If the client has not been closed, the deadline counted from the first
`handle_timeout` is enforced: whatever packets, timeouts, polls and sends came in between, a
`handle_timeout` at or after it returns Timeout. -/
theorem client_deadline {env : PEnv} {cfg : Cfg} {hyb : Option (Nat × Nat)} {s0 : Ses CSt}
    (h0 : ClientStart env cfg hyb s0) (cs : List Call) (hc : Call.close ∉ cs)
    (hr : ∀ x ∈ (run C13.role env s0 cs).1, ¬ Stops x) (t0 n : Nat) (ht : firstTimeout cs = some t0)
    (hn : t0 + cfg.handshakeTimeout ≤ n) :
    (call C13.role env (run C13.role env s0 cs).2 (.timeout n)).1 = .res (.err .timeoutConnect) := by
  have h := run_ck (R := C13.role) (C13.step_ck env) cs s0 hc hr
  rw [client_clock h0, clock_eq, ht] at h
  exact timeout_fires _ n _ (congrArg Prod.snd h) hn

/-- **C31, server.** The same for a server while the handshake is under way: always if it does not ask
for client certificates; if it does, until the client's Certificate has been accepted. -/
theorem server_deadline_partial {env : PEnv} {cfg : Cfg} (now : Nat) (auto : Bool) (cs : List Call)
    (hr : ∀ x ∈ (run S13.role env (S13.start env cfg now auto) cs).1, ¬ Stops x) (t0 n : Nat)
    (ht : firstTimeout cs = some t0) (hn : t0 + cfg.handshakeTimeout ≤ n)
    (ho : (run S13.role env (S13.start env cfg now auto) cs).2.st ∉
      [SSt.awaitApplicationData, .halfClosedLocal, .closed])
    (ha : env.requireClientCert = false ∨ (run S13.role env (S13.start env cfg now auto) cs).2.st ∉
      [SSt.awaitCertificateVerify, .awaitFinished]) :
    (call S13.role env (run S13.role env (S13.start env cfg now auto) cs).2 (.timeout n)).1 =
      .res (.err .timeoutConnect) := by
  have h := (S13.kept_walk env).run _ cs _ (server_kept cfg now auto) hr
  rw [clock_eq, ht] at h
  refine timeout_fires _ n _ (h.run ?_ (ha.imp id ?_)) hn
  · generalize (run S13.role env (S13.start env cfg now auto) cs).2.st = st at ho
    cases st <;> first | rfl | exact absurd (by decide) ho
  · intro g
    exact ⟨fun e => g (by rw [e]; decide), fun e => g (by rw [e]; decide)⟩

/-- **C53, server, partial.** After Connected was output, no `handle_timeout` reports that the connection could not
be established in time. It can still give up the flight of a KeyUpdate: `Ack13.packed_key_update_unacked`,
`Ack13.lost_ack_is_fatal`. -/
theorem server_connected_stays_partial {env : PEnv} {cfg : Cfg} (now : Nat) (auto : Bool) (cs : List Call)
    (hr : ∀ x ∈ (run S13.role env (S13.start env cfg now auto) cs).1, ¬ Stops x)
    (hd : Output.connected ∈ outputs (run S13.role env (S13.start env cfg now auto) cs).1) (n : Nat) :
    (call S13.role env (run S13.role env (S13.start env cfg now auto) cs).2 (.timeout n)).1 ≠
      .res (.err .timeoutConnect) := by
  have h := (S13.kept_walk env).run _ cs _ (server_kept cfg now auto) hr
  have t := (((Server.saga env).story (S13.tail env)).run [] cs _ (serverTale env cfg now auto)).2 hr
  rw [List.nil_append] at t
  generalize run S13.role env (S13.start env cfg now auto) cs = r at hd h t
  have hrel : r.2.eng.release = true := by
    have := t.told
    cases hb : r.2.eng.release with
    | true => rfl
    | false =>
      rw [hb] at this
      have hpos : 0 < (outputs r.1).count .connected := List.count_pos_iff.mpr hd
      unfold toldBy at this
      simp at this
      omega
  have ho : S13.over r.2.st = true := by
    rcases t.last hrel with e | e | e <;> rw [e] <;> rfl
  exact S13.timeout_noTo n _ ho (h.off ho)

/-! ## Cases -/

/-- The datagrams among calls. -/
def fed (cs : List Call) : List Bytes :=
  cs.filterMap fun
    | .packet p => some p
    | _ => none

/-- A client waiting for the server's flight is timed out at the deadline. -/
example : let cs := (Demo.clientCalls Demo.plainEnv).take 3
    let r : List Ret × Ses CSt := run C13.role Demo.plainEnv (C13.start Demo.plainEnv Demo.cfg 0) cs
    Call.close ∉ cs ∧ (∀ x ∈ r.1, ¬ Stops x) ∧ firstTimeout cs = some 0 ∧ r.2.st = .awaitServerHello := by
  decide +kernel

/-- A server waiting for Finished, without client certificates. -/
example : let cs := (Demo.serverCalls Demo.plainEnv).take 4
    let r : List Ret × Ses SSt := run S13.role Demo.plainEnv (S13.start Demo.plainEnv Demo.cfg 0 false) cs
    (∀ x ∈ r.1, ¬ Stops x) ∧ firstTimeout cs = some 0 ∧ r.2.st = .awaitFinished := by
  decide +kernel

/-- A connected server. -/
example : let r := Demo.serverRun Demo.fullEnv []
    (∀ x ∈ r.1, ¬ Stops x) ∧ Output.connected ∈ outputs r.1 := by
  decide +kernel

/-! ## What does not hold -/

/-- **C53 fails for clients.** The client never stops its connect timer: with Connected output and the
server's ACK of its Finished received, the next `handle_timeout` after the deadline kills the
connection. By `client_deadline` this happens to every client that is not closed before. -/
theorem connected_client_times_out :
    let r := Demo.clientRun Demo.plainEnv [.timeout 1000]
    Output.connected ∈ outputs r.1 ∧ (∀ x ∈ r.1, ¬ Stops x) ∧ r.2.eng.saved = [] ∧
    (call C13.role Demo.plainEnv r.2 (.timeout 40000000000)).1 = .res (.err .timeoutConnect) := by
  decide +kernel

/-- The client's last datagram holds Certificate, CertificateVerify and Finished; only the first record
arrives. -/
def certificateOnly : List Call :=
  (Demo.serverCalls Demo.fullEnv).take 8 ++
    ((fed (Demo.serverCalls Demo.fullEnv)).drop 2).map (fun p => .packet (p.take 24)) ++ [.poll 2000]

/-- **C31 fails for servers that ask for client certificates.** Accepting the Certificate stops all
timers, so a client that says nothing more is never timed out: the reported timeout is ten years away
and `handle_timeout` after the deadline returns Ok. -/
theorem server_waits_forever :
    let r : List Ret × Ses SSt := run S13.role Demo.fullEnv (S13.start Demo.fullEnv Demo.cfg 0 false)
      (certificateOnly ++ [.timeout 40000000000, .poll 2000, .timeout 1000000000000000000])
    r.2.st = .awaitCertificateVerify ∧ firstTimeout certificateOnly = some 0 ∧
    r.1.drop 10 = [.res .ok, .out (.eng (.timeout (40000000000 + distantFuture))), .res .ok] := by
  decide +kernel

/-- The server's flight arrives at the client without EncryptedExtensions. -/
def gapped : List Call :=
  (Demo.clientCalls Demo.plainEnv).take 3 ++
    ((fed (Demo.clientCalls Demo.plainEnv)).take 1).map (fun p => .packet (p.take 62 ++ p.drop 81))

/-- **C32 fails in DTLS 1.3.** While a message is missing, every `handle_timeout` sends an ACK and the
timeout reported right after is not later than the present: an application that sleeps until the
reported instant spins, sending ACKs. -/
theorem ack_storm :
    let r : List Ret × Ses CSt := run C13.role Demo.plainEnv (C13.start Demo.plainEnv Demo.cfg 0)
      (gapped ++ [.timeout 5, .poll 2000, .poll 2000, .timeout 5, .poll 2000, .poll 2000])
    (r.1.drop 4).map (fun
      | .res .ok => (0, 0)
      | .out (.eng (.packet _)) => (1, 0)
      | .out (.eng (.timeout t)) => (2, t)
      | _ => (3, 0)) = [(0, 0), (1, 0), (2, 5), (0, 0), (1, 0), (2, 5)] := by
  decide +kernel

/-- **C32 and C38 fail in DTLS 1.3.** Closing in that situation leaves a timeout in the past behind that
no `handle_timeout` removes. -/
theorem closed_spins :
    let r : List Ret × Ses CSt := run C13.role Demo.plainEnv (C13.start Demo.plainEnv Demo.cfg 0)
      (gapped ++ [.close, .poll 2000, .timeout 5, .poll 2000, .timeout 8, .poll 2000])
    r.2.st = .closed ∧ r.1.drop 4 = [.res .ok, .out (.eng (.timeout 0)), .res .ok, .out (.eng (.timeout 0)), .res .ok,
      .out (.eng (.timeout 0))] := by
  decide +kernel

/-- **C38 (DTLS 1.3).** Otherwise, with nothing waiting in the receive queue that an ACK could help with, closing
during the handshake leaves no deadline: the timeout reported is ten years away. -/
theorem close_distant {R : Role} {env : PEnv} (s : Ses R.St) (h1 : s.st ≠ R.app) (h2 : s.st ≠ R.closed)
    (h3 : s.st ≠ R.halfClosed) (hg : helpNeeded (purge s.eng) = false) (n t : Nat)
    (ht : (call R env (call R env s .close).2 (.poll n)).1 = .out (.eng (.timeout t))) :
    t = s.lastNow + 10 * 365 * 86400 * 1000000000 := by
  have hc : (call R env s .close).2 = { s with eng := abort s.eng, st := R.closed } := by
    unfold call closeM
    simp [M.bind, M.get, M.andThen, h1, h2, h3, onEng', M.modify]
  rw [hc] at ht
  unfold call pollM at ht
  dsimp only at ht
  have key : ∀ (e : Eng), e.ackDeadline = none → e.timers.connect = .disabled → e.timers.flight = .disabled →
      helpNeeded e = false → (pollRest n s.lastNow e).1 = .timeout t → t = s.lastNow + 10 * 365 * 86400 * 1000000000 := by
    intro e q1 q2 q3 q4 hp
    have hs : ∀ e : Eng, e.ackDeadline = none → helpNeeded e = false → scheduleAck s.lastNow e = { e with ackDeadline := none } := by
      intro e q1 q4
      unfold scheduleAck
      split
      · rfl
      · rw [q1]; simp only [Option.isSome_none, Bool.false_eq_true, if_false, q4, Bool.not_false, if_true]
        cases e; subst q1; rfl
    unfold pollRest at hp
    rw [hs e q1 q4] at hp
    dsimp only at hp
    split at hp
    · split at hp <;> cases hp
    · split at hp
      · cases hp
      · have hp' := (E12.Out.timeout.inj hp)
        unfold pollTimeout at hp'
        dsimp only at hp'
        rw [if_pos ⟨q2, q3, rfl⟩] at hp'
        rw [← hp']
        rfl
  cases hev : s.events with
  | cons e rest =>
    rw [hev] at ht
    dsimp only at ht
    unfold E12.eventOutput at ht
    repeat (first | cases ht | split at ht)
  | nil =>
    rw [hev] at ht
    have hp : (pollOutput n s.lastNow (abort s.eng)).1 = .timeout t := by
      simpa using ht
    unfold pollOutput at hp
    dsimp only at hp
    split at hp
    · split at hp
      · split at hp <;> cases hp
      · exact key (purge (abort s.eng)) rfl rfl rfl hg hp
    · exact key (purge (abort s.eng)) rfl rfl rfl hg hp

/-- A client that has sent its ClientHello and is closed. -/
example :
    let s := (run C13.role Demo.plainEnv (C13.start Demo.plainEnv Demo.cfg 0) [.timeout 0, .poll 2000]).2
    s.st ≠ C13.role.app ∧ s.st ≠ C13.role.closed ∧ s.st ≠ C13.role.halfClosed ∧ helpNeeded (purge s.eng) = false ∧
    s.eng.timers.flight ≠ .disabled ∧
    (call C13.role Demo.plainEnv (call C13.role Demo.plainEnv s .close).2 (.poll 0)).1 =
      .out (.eng (.timeout 315360000000000000)) := by decide +kernel

/-- **C55 fails.** A new flight leaves its timer unarmed until the next `handle_timeout`, and the reported
timeout does not count it: the deadline comes first, and at the deadline the handshake is given up. -/
theorem unarmed_not_counted (t : Timers) (c T now n : Nat) (j : Int) (hc : t.connect = .armed c)
    (hf : t.flight = .unarmed) (hn : c ≤ n) : t.poll now = c ∧ (t.handle T n j).2 = .connectTimeout := by
  constructor
  · unfold Timers.poll; simp [hc, hf]
  · have h1 : (t.arm T n).connect = .armed c := by rw [arm_connect, hc]; rfl
    unfold Timers.handle
    dsimp only
    rw [h1, if_pos (by exact decide_eq_true hn)]

/-- A client whose first datagram is lost and that calls `handle_timeout` when told to never sends it
again, in both versions. -/
theorem never_resends :
    let seen := fun (r : Ret) => match r with
      | .res .ok => (0, 0)
      | .out (.eng (.packet _)) => (1, 0)
      | .out (.eng (.timeout t)) => (2, t)
      | .res (.err .timeoutConnect) => (4, 0)
      | _ => (3, 0)
    let cs : List Call := [.timeout 7, .poll 2000, .poll 2000, .timeout 40000000007]
    (run C13.role Demo.plainEnv (C13.start Demo.plainEnv Demo.cfg 0) cs).1.map seen =
      [(0, 0), (1, 0), (2, 40000000007), (4, 0)] ∧
    (E12.run E12.C12.role E12.Demo.pskEnv (E12.C12.start E12.Demo.pskEnv E12.Demo.cfg 0) cs).1.map seen =
      [(0, 0), (1, 0), (2, 40000000007), (4, 0)] := by
  decide +kernel

/-- Before its first `handle_timeout` a DTLS 1.3 client that has sent nothing reports a timeout ten years
away; a DTLS 1.2 client reports the present. -/
theorem first_timeout_far :
    (run C13.role Demo.plainEnv (C13.start Demo.plainEnv Demo.cfg 0) [.poll 2000]).1 =
      [.out (.eng (.timeout distantFuture))] ∧
    (E12.run E12.C12.role E12.Demo.pskEnv (E12.C12.start E12.Demo.pskEnv E12.Demo.cfg 0) [.poll 2000]).1 =
      [.out (.eng (.timeout 0))] := by
  decide +kernel

end Verif.Props.Timer13

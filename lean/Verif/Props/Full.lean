import Verif.Props.Demo12
import Verif.Props.Demo13
/-!
# C68: a full transmit queue

`TransmitQueueFull` says that datagrams wait to be polled. For `send_application_data` and `close` the call may be
repeated after polling: a refused call has changed nothing. For `handle_packet` and `handle_timeout` this fails in
both versions: the step that was refused is made again with other numbers, or panics, or a flight is forgotten.
-/
namespace Verif.Props.Full
open Verif M Wire

namespace V12
open E12

variable {env : PEnv} {R : Role}

theorem record_full {e e' : Eng} {ct : UInt8} {d : Bytes}
    (h : createRecord env.toEnv ct 1 false false d e = (.fail (.fatal .transmitQueueFull), e')) :
    e' = e ∧ e.cfg.maxTx ≤ e.tx.length := by
  unfold createRecord saveEntry at h
  split at h
  · cases h
  · simp only [Bool.false_eq_true, if_false] at h
    split at h
    · rename_i hf
      cases h
      simp only [Bool.and_eq_true, decide_eq_true_eq] at hf
      exact ⟨rfl, hf.2⟩
    · split at h
      · unfold sealRecord at h
        split at h
        · cases h
        · split at h
          · cases h
          · dsimp only at h
            split at h
            · cases h
            · split at h <;> cases h
      · cases h

/-- **C68 (DTLS 1.2), sending and closing.** Refused for a full queue, the call has changed nothing, so it can be
repeated; and it is only refused if the queue is full. -/
theorem refused_unchanged (s : Ses R.St) (c : Call) (hc : (∃ d, c = .send d) ∨ c = .close)
    (h : (call R env s c).1 = .res (.err .transmitQueueFull)) :
    (call R env s c).2 = s ∧ s.eng.cfg.maxTx ≤ s.eng.tx.length := by
  have key : ∀ (ct : UInt8) (d : Bytes) (k : Unit → P R.St Unit),
      (∀ s' : Ses R.St, toApi (k () s').1 ≠ .err .transmitQueueFull) →
      toApi (M.bind (onEng (createRecord env.toEnv ct 1 false false d)) k s).1 = .err .transmitQueueFull →
      (M.bind (onEng (createRecord env.toEnv ct 1 false false d)) k s).2 = s ∧ s.eng.cfg.maxTx ≤ s.eng.tx.length := by
    intro ct d k hk hh
    simp only [M.bind, onEng, M.zoom] at hh ⊢
    cases hr : createRecord env.toEnv ct 1 false false d s.eng with
    | mk r e' =>
      rw [hr] at hh
      cases r with
      | ok u => exact absurd hh (hk _)
      | fail f =>
        have hf : f = .fatal .transmitQueueFull := by
          cases f with
          | fatal x =>
            have : ApiRes.err x = .err .transmitQueueFull := hh
            cases this; rfl
          | transient => cases hh
          | panic => cases hh
          | diverge => cases hh
        subst hf
        obtain ⟨rfl, h2⟩ := record_full hr
        exact ⟨rfl, h2⟩
  rcases hc with ⟨d, rfl⟩ | rfl
  · have e : call R env s (.send d) = (.res (toApi (sendM R env d s).1), (sendM R env d s).2) := rfl
    rw [e] at h ⊢
    have e2 : sendM R env d s = (if s.st = R.closed then M.fatal .connectionClosed
        else if s.st ≠ R.app then M.modify fun s => { s with queued := s.queued ++ [d] }
        else onEng (createRecord env.toEnv ctAppData 1 false false d) : P R.St Unit) s := rfl
    rw [e2] at h ⊢
    have h : toApi _ = ApiRes.err .transmitQueueFull := Ret.res.inj h
    split at h
    · cases h
    · rename_i h1
      rw [if_neg h1]
      split at h
      · cases h
      · rename_i h2
        rw [if_neg h2]
        have e3 : ∀ s : Ses R.St, onEng (createRecord env.toEnv ctAppData 1 false false d) s =
            M.bind (onEng (createRecord env.toEnv ctAppData 1 false false d)) M.pure s := by
          intro s
          simp only [M.bind, onEng, M.zoom]
          cases createRecord env.toEnv ctAppData 1 false false d s.eng with
          | mk r e' => cases r <;> rfl
        rw [e3] at h ⊢
        exact key _ _ _ (fun _ g => by cases g) h
  · have e : call R env s .close = (.res (toApi (closeM R env s).1), (closeM R env s).2) := rfl
    rw [e] at h ⊢
    have e2 : closeM R env s = (if s.st = R.closed then M.pure ()
        else if s.st ≠ R.app then M.bind (onEng' abort) fun _ => M.modify fun s => { s with st := R.closed }
        else M.bind (onEng (createRecord env.toEnv ctAlert 1 false false [1, 0])) fun _ =>
          M.modify fun s => { s with st := R.closed } : P R.St Unit) s := rfl
    rw [e2] at h ⊢
    have h : toApi _ = ApiRes.err .transmitQueueFull := Ret.res.inj h
    split at h
    · cases h
    · rename_i h1
      rw [if_neg h1]
      split at h
      · cases h
      · rename_i h2
        rw [if_neg h2]
        exact key _ _ _ (fun _ g => by cases g) h

/-- Retransmission keeps the flight, whether it succeeds or not. -/
theorem resend_keeps (e : Eng) : (flightResend env.toEnv e).2.saved = e.saved := rfl

/-- A server with small datagrams and a short queue. -/
def tightCfg : Cfg := { Demo.cfg with maxTx := 2, mtu := 64 }

def hello : List Call := (Demo.packets (run C12.role Demo.chachaEnv (C12.start Demo.chachaEnv Demo.cfg 0)
  [.timeout 0, .poll 2000]).1).map .packet

/-- It is refused room for the ServerHelloDone, polls, and goes on with an empty datagram. -/
def retry : List Ret × Ses SSt := run S12.role Demo.chachaEnv (S12.start Demo.chachaEnv tightCfg 0)
  ([.timeout 0] ++ hello ++ [.poll 2000, .poll 2000, .packet [], .poll 2000])

/-- The client that gets all its datagrams. -/
def retryClient : Ses CSt := (run C12.role Demo.chachaEnv (C12.start Demo.chachaEnv Demo.cfg 0)
  ([.timeout 0, .poll 2000] ++ (Demo.packets retry.1).map .packet)).2

/-- C68 fails for `handle_packet` in DTLS 1.2: the server was answered `TransmitQueueFull`, polled and called again;
its ServerHelloDone goes out with message number 4 instead of 3, and the client, with every datagram in hand,
waits for number 3. With room for three datagrams the same client goes on. -/
theorem retry_skips_number :
    retry.1.take 2 = [.res .ok, .res (.err .transmitQueueFull)] ∧
    (Demo.packets retry.1).getLast? = some [22, 254, 253, 0, 0, 0, 0, 0, 0, 0, 3, 0, 12, 14, 0, 0, 0, 0, 4, 0, 0, 0, 0, 0, 0] ∧
    retry.2.st = .awaitClientKeyExchange ∧
    retryClient.st = .awaitCertificateRequest ∧ retryClient.eng.peerSeq = 3 := by decide +kernel

def roomy : List Ret × Ses SSt := run S12.role Demo.chachaEnv (S12.start Demo.chachaEnv { tightCfg with maxTx := 3 } 0)
  ([.timeout 0] ++ hello ++ [.poll 2000, .poll 2000, .poll 2000])

def roomyClient : Ses CSt := (run C12.role Demo.chachaEnv (C12.start Demo.chachaEnv Demo.cfg 0)
  ([.timeout 0, .poll 2000] ++ (Demo.packets roomy.1).map .packet)).2

theorem roomy_goes_on : roomyClient.st ≠ .awaitCertificateRequest ∧ roomyClient.eng.peerSeq = 4 := by decide +kernel

/-- The hypothesis of `refused_unchanged` is met by a connected client that does not poll. -/
def stuffed : Ses CSt := (run C12.role Demo.pskEnv (Demo.clientRun Demo.pskEnv []).2
  (List.replicate 10 (.send (List.replicate 100 1)))).2

theorem stuffed_refused :
    (call C12.role Demo.pskEnv stuffed (.send (List.replicate 100 1))).1 = .res (.err .transmitQueueFull) ∧
    (call C12.role Demo.pskEnv stuffed .close).1 = .res .ok ∧
    (call C12.role Demo.pskEnv (call C12.role Demo.pskEnv stuffed (.poll 2000)).2 (.send (List.replicate 100 1))).1 =
      .res .ok := by
  decide +kernel

end V12

namespace V13
open E13

variable {env : PEnv} {R : Role}

theorem record_full {e e' : Eng} {ct : UInt8} {ep : Nat} {d : Bytes}
    (h : createCipher env.toEnv ct ep false d e = (.fail (.fatal .transmitQueueFull), e')) :
    (∃ l, e' = { e with log := l }) ∧ e.cfg.maxTx ≤ e.tx.length := by
  have h : sealCipher env.toEnv ct ep d e = (.fail (.fatal .transmitQueueFull), e') := h
  unfold sealCipher at h
  split at h
  · split at h
    · cases h
    · dsimp only at h
      split at h
      · cases h
      · unfold queueCipher at h
        dsimp only at h
        split at h
        · rename_i hf
          cases h
          simp only [Bool.and_eq_true, decide_eq_true_eq] at hf
          exact ⟨⟨_, rfl⟩, hf.2⟩
        · split at h <;> cases h
  · cases h

/-- **C68 (DTLS 1.3), sending and closing.** As in DTLS 1.2; `log` is only the history the proofs keep. -/
theorem refused_unchanged (s : Ses R.St) (c : Call) (hc : (∃ d, c = .send d) ∨ c = .close)
    (h : (call R env s c).1 = .res (.err .transmitQueueFull)) :
    (∃ l, (call R env s c).2 = { s with eng := { s.eng with log := l } }) ∧ s.eng.cfg.maxTx ≤ s.eng.tx.length := by
  have key : ∀ (ct : UInt8) (ep : Nat) (d : Bytes) (k : Unit → P R.St Unit),
      (∀ s' : Ses R.St, toApi (k () s').1 ≠ .err .transmitQueueFull) →
      toApi (M.bind (onEng (createCipher env.toEnv ct ep false d)) k s).1 = .err .transmitQueueFull →
      (∃ l, (M.bind (onEng (createCipher env.toEnv ct ep false d)) k s).2 = { s with eng := { s.eng with log := l } }) ∧
        s.eng.cfg.maxTx ≤ s.eng.tx.length := by
    intro ct ep d k hk hh
    simp only [M.bind, onEng, M.zoom] at hh ⊢
    cases hr : createCipher env.toEnv ct ep false d s.eng with
    | mk r e' =>
      rw [hr] at hh
      cases r with
      | ok u => exact absurd hh (hk _)
      | fail f =>
        have hf : f = .fatal .transmitQueueFull := by
          cases f with
          | fatal x =>
            have : E12.ApiRes.err x = .err .transmitQueueFull := hh
            cases this; rfl
          | transient => cases hh
          | panic => cases hh
          | diverge => cases hh
        subst hf
        obtain ⟨⟨l, rfl⟩, h2⟩ := record_full hr
        exact ⟨⟨l, rfl⟩, h2⟩
  rcases hc with ⟨d, rfl⟩ | rfl
  · have e : call R env s (.send d) = (.res (toApi (sendM R env d s).1), (sendM R env d s).2) := rfl
    rw [e] at h ⊢
    have e2 : sendM R env d s = (if s.st = R.closed ∨ s.st = R.halfClosed then M.fatal .connectionClosed
        else if s.st ≠ R.app then M.modify fun s => { s with queued := s.queued ++ [d] }
        else onEng (createCipher env.toEnv ctAppData s.eng.appEpoch false d) : P R.St Unit) s := rfl
    rw [e2] at h ⊢
    have h : toApi _ = E12.ApiRes.err .transmitQueueFull := E12.Ret.res.inj h
    split at h
    · cases h
    · rename_i h1
      rw [if_neg h1]
      split at h
      · cases h
      · rename_i h2
        rw [if_neg h2]
        have e3 : ∀ s' : Ses R.St, onEng (createCipher env.toEnv ctAppData s.eng.appEpoch false d) s' =
            M.bind (onEng (createCipher env.toEnv ctAppData s.eng.appEpoch false d)) M.pure s' := by
          intro s'
          simp only [M.bind, onEng, M.zoom]
          cases createCipher env.toEnv ctAppData s.eng.appEpoch false d s'.eng with
          | mk r e' => cases r <;> rfl
        rw [e3] at h ⊢
        exact key _ _ _ _ (fun _ g => by cases g) h
  · have e : call R env s .close = (.res (toApi (closeM R env s).1), (closeM R env s).2) := rfl
    rw [e] at h ⊢
    have e2 : closeM R env s = (if s.st = R.closed ∨ s.st = R.halfClosed then M.pure ()
        else if s.st ≠ R.app then M.bind (onEng' abort) fun _ => M.modify fun s => { s with st := R.closed }
        else M.bind (onEng (createCipher env.toEnv ctAlert s.eng.appEpoch false [1, 0])) fun _ =>
          M.bind (onEng' cancelFlights) fun _ => M.modify fun s => { s with st := R.halfClosed } : P R.St Unit) s := rfl
    rw [e2] at h ⊢
    have h : toApi _ = E12.ApiRes.err .transmitQueueFull := E12.Ret.res.inj h
    split at h
    · cases h
    · rename_i h1
      rw [if_neg h1]
      split at h
      · cases h
      · rename_i h2
        rw [if_neg h2]
        exact key _ _ _ _ (fun _ g => by cases g) h

/-- A connected client that does not poll. -/
def stuffed : Ses CSt := (run C13.role Demo.plainEnv (Demo.clientRun Demo.plainEnv []).2
  (List.replicate 10 (.send (List.replicate 100 1)))).2

theorem stuffed_refused :
    (call C13.role Demo.plainEnv stuffed (.send (List.replicate 100 1))).1 = .res (.err .transmitQueueFull) ∧
    (call C13.role Demo.plainEnv (call C13.role Demo.plainEnv stuffed (.poll 2000)).2 (.send (List.replicate 100 1))).1 =
      .res .ok := by
  decide +kernel

def hello : List Call := (E12.Demo.packets (run C13.role Demo.plainEnv (C13.start Demo.plainEnv Demo.cfg 0)
  [.timeout 0, .poll 2000]).1).map .packet

/-- A server with small datagrams and the default queue of ten. It gets a ClientHello and does not poll until the third
retransmission is refused; then it polls everything and goes on. -/
def forgetful : List Ret × Ses SSt := run S13.role Demo.plainEnv (S13.start Demo.plainEnv { Demo.cfg with mtu := 64 } 0 false)
  ([.timeout 0] ++ hello ++ [.timeout 0, .timeout 1500000000, .timeout 4000000000, .timeout 9000000000] ++
    List.replicate 11 (.poll 2000) ++ [.timeout 19000000000, .poll 2000])

/-- C68 fails for `handle_timeout` in DTLS 1.3: `flight_resend` takes the flight out and puts it back only if every record
found room. After the refusal there is nothing left to retransmit: the next timeout, two retransmissions early,
sends nothing, and if the datagrams were lost the handshake ends in a timeout. -/
theorem flight_forgotten :
    forgetful.1.take 6 = [.res .ok, .res .ok, .res .ok, .res .ok, .res .ok, .res (.err .transmitQueueFull)] ∧
    forgetful.1.drop 16 = [.out (.eng (.timeout 17000000000)), .res .ok, .out (.eng (.timeout 35000000000))] ∧
    forgetful.2.eng.saved = [] ∧ forgetful.2.st = .awaitFinished := by decide +kernel

/-- The same server, had it polled. -/
def mindful : List Ret × Ses SSt := run S13.role Demo.plainEnv (S13.start Demo.plainEnv { Demo.cfg with mtu := 64 } 0 false)
  ([.timeout 0] ++ hello ++ [.timeout 0, .timeout 1500000000, .timeout 4000000000] ++ List.replicate 10 (.poll 2000) ++
    [.timeout 9000000000] ++ List.replicate 4 (.poll 2000) ++ [.timeout 19000000000, .poll 2000])

/-- It retransmits at that time. -/
theorem polled_resends : mindful.2.eng.saved ≠ [] ∧ (E12.Demo.packets (mindful.1.drop 21)).length = 1 := by decide +kernel

/-- A server that asks for a cookie, with a queue of one datagram; its HelloRetryRequest waits to be sent again when the
second ClientHello arrives. -/
def cornered : List Ret :=
  let d := Demo.round Demo.fullEnv Demo.fullEnv (Demo.duo0 Demo.fullEnv Demo.fullEnv)
  let second := (E12.Demo.packets (run C13.role Demo.fullEnv d.client [.poll 2000]).1).map E12.Call.packet
  (run S13.role Demo.fullEnv (S13.start Demo.fullEnv { Demo.cfg with maxTx := 1 } 0 false)
    (d.sCalls ++ [.timeout 0, .timeout 1500000000] ++ second ++ [.poll 2000, .packet []])).1

/-- C68 and C22 fail for `handle_packet` in DTLS 1.3: `send_server_hello` cuts what it needs off `extension_data` before
it knows that there is room, so the next call after `TransmitQueueFull` panics. -/
theorem retry_panics :
    cornered[6]? = some (.res (.err .transmitQueueFull)) ∧ cornered.getLast? = some (.res .panic) ∧
    cornered.length = 9 := by decide +kernel

end V13
end Verif.Props.Full

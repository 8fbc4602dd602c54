import Verif.Lemmas.Forged13
import Verif.Lemmas.Order13
import Verif.Lemmas.Sent13
import Verif.Props.Demo13
/-!
# What datagrams do to a DTLS 1.3 session (C03, C13, C19, C21, C23, C24)
-/
namespace Verif.Props.Recv13
open Verif Verif.E13 Verif.Wire Verif.Aead Verif.M
open Verif.E12 (outputs Call Output)

variable {env : PEnv} {cfg : Cfg} {R : Role} {s0 : Ses R.St}

/-! ## C13 -/

/-- Numbers of the handshake messages a state has gone past, oldest first. -/
def accepted (l : List Ev) : List Nat := (l.filterMap fun | .accepted q => some q | _ => none).reverse

theorem accepted_eq (l : List Ev) : accepted l = (acceptedOf l).reverse := by
  unfold accepted
  congr 1
  induction l with
  | nil => rfl
  | cons e l ih => cases e <;> simp_all [acceptedOf]

/-- **C13 (DTLS 1.3).** Whatever datagrams arrive and whatever is called, the handshake messages gone past
so far are numbers 0, 1, 2, … without gap or repetition, and a message handed to a state of the handshake
(`taken`) always has the number that comes next at that moment. What is missing: that no number is handed out
twice before the state goes past it; it is false (`taken_twice`). -/
theorem consumed_in_order_partial (h : Start env cfg R s0) (cs : List Call) :
    (∃ n, accepted (run R env s0 cs).2.eng.log = List.range n) ∧
    ∀ later before q m t, (run R env s0 cs).2.eng.log = later ++ .taken q m t :: before →
      accepted before = List.range q := by
  have h1 := h.ordInv cs
  refine ⟨⟨_, by rw [accepted_eq, h1.next, List.reverse_reverse]⟩, ?_⟩
  intro later before q m t he
  have h2 : Ordered (later ++ .taken q m t :: before) := he ▸ h1.ord
  clear he
  induction later with
  | nil => rw [accepted_eq, h2.1, List.reverse_reverse]
  | cons e l ih =>
    refine ih ?_
    cases e <;> first | exact h2 | exact h2.2

example : accepted (Demo.clientRun Demo.fullEnv []).2.eng.log = List.range 7 := by decide +kernel

/-- Key shares that are empty do not parse. -/
def strictEnv : PEnv := { Demo.plainEnv with
  parseClientShares := fun b => match b with | g :: p :: ps => some [(g.toNat, p :: ps)] | _ => none }

/-- A ClientHello whose key share does not parse. -/
def badHello : Bytes :=
  let body := Demo.helloBody (List.replicate 32 0) 29 [] none
  let hs := serializeHs { msgType := 1, length := body.length, messageSeq := 0, fragOff := 0,
                          fragLen := body.length } body
  [22, 254, 253, 0, 0, 0, 0, 0, 0, 0, 7] ++ beBytes 2 hs.length ++ hs

/-- A handshake in which the server first receives the datagrams `ps`. -/
def disturbed (ps : List Bytes) : Demo.Duo :=
  let d := Demo.duo0 strictEnv strictEnv
  let d := { d with server := (run S13.role strictEnv d.server (ps.map .packet)).2,
                    sCalls := d.sCalls ++ ps.map .packet }
  let r := Demo.round strictEnv strictEnv
  r (r (r (r d)))

/-- Numbers of the messages handed out. -/
def takenNumbers (l : List Ev) : List Nat := (l.filterMap fun | .taken q _ _ => some q | _ => none).reverse

/-- C13 fails: a ClientHello that is dropped because an extension does not parse stays in the transcript, and
the genuine one is consumed under the same number. The handshake, which completes without the malformed
datagram, then stalls, since the transcripts differ. -/
theorem taken_twice :
    takenNumbers (disturbed []).server.eng.log = [0, 1] ∧ (disturbed []).server.st = .awaitApplicationData ∧
    takenNumbers (disturbed [badHello]).server.eng.log = [0, 0] ∧
    (disturbed [badHello]).server.st = .awaitFinished ∧
    (run S13.role strictEnv (S13.start strictEnv Demo.cfg 0 false) [.timeout 0, .packet badHello]).1 =
      [.res .ok, .res .ok] := by decide +kernel

/-! ## C19 -/

/-- **C19 (DTLS 1.3), bound.** -/
theorem rx_bounded (h : Start env cfg R s0) (cs : List Call) :
    (run R env s0 cs).2.eng.rx.length ≤ cfg.maxRx := by
  have h1 := h.ordInv cs
  have := h1.size
  rwa [h1.cfg] at this

/-! ## Calls -/

/-- The end of `handle_packet`. -/
def settle (R : Role) (s : Ses R.St) : Ses R.St :=
  if s.autoMode && !R.first s.st then { s with retained := [], autoMode := false } else s

theorem call_packet (s : Ses R.St) (p : Bytes) (hf : R.first s.st = false) : call R env s (.packet p) =
    match parsePacket env.toEnv p s.eng with
    | (.ok _, e) =>
      match progress R env progressFuel { s with eng := e } with
      | (.ok _, s') => (.res .ok, settle R s')
      | (.fail f, s') => (.res (toApi (.fail f : Res Unit)), s')
    | (.fail f, e) => (.res (toApi (.fail f : Res Unit)), { s with eng := e }) := by
  have h2 : handlePacketM R env p s = M.andThen (M.andThen ((parsePacket env.toEnv p s.eng).1,
      { s with eng := (parsePacket env.toEnv p s.eng).2 }) fun _ => progress R env progressFuel)
        fun _ => M.modify (settle R) := by
    unfold handlePacketM
    simp only [bind_eq, M.bind, M.get, M.andThen, hf, Bool.and_false, Bool.false_eq_true, if_false]
    simp only [E13.onEng, M.zoom]
    cases parsePacket env.toEnv p s.eng with
    | mk r e => cases r <;> rfl
  show (let (r, s') := handlePacketM R env p s; ((.res (toApi r), s') : Ret × Ses R.St)) = _
  rw [h2]
  cases parsePacket env.toEnv p s.eng with
  | mk r e =>
    cases r with
    | fail f => rfl
    | ok _ =>
      simp only [M.andThen]
      cases progress R env progressFuel { s with eng := e } with
      | mk r' s' => cases r' <;> rfl

/-- The queue and its bound. -/
def queue (e : Eng) := (e.rx, e.cfg)

theorem recordParse_queue (e : Env) (sl : Bytes) (s : Eng) : queue (recordParse e sl s).2 = queue s := by
  unfold recordParse
  dsimp only
  split
  · rfl
  split
  · split
    · unfold openRecord
      dsimp only
      split; · rfl
      split; · rfl
      split; · rfl
      split; · rfl
      split; · rfl
      have : ∀ k a b c d g, queue (noteOpened s k a b c d g) = queue s := by
        intro k a b c d g
        unfold noteOpened Eng.replayUpdate
        split <;> rfl
      split <;> exact this ..
    · rfl
  · rfl
  · rfl

theorem parseSlices_queue (e : Env) (sls : List Bytes) (d : SplitEnd) (acc : List Rx) (s : Eng) :
    queue (parseSlices e sls d acc s).2 = queue s := by
  induction sls generalizing acc s with
  | nil => cases d <;> rfl
  | cons sl rest ih =>
    unfold parseSlices
    rw [bind_snd]
    split
    · rename_i s' _
      have h1 := recordParse_queue e sl s
      cases s' with
      | none => exact (ih ..).trans h1
      | some r =>
        dsimp only
        split
        · exact h1
        · exact (ih ..).trans h1
    · exact recordParse_queue e sl s

theorem classifyAll_queue (e : Env) (l acc : List Rx) (s : Eng) : queue (classifyAll e l acc s).2 = queue s := by
  have one : ∀ r s, queue (classify e r s).2 = queue s := by
    intro r s
    unfold classify
    split; · rfl
    split; · rfl
    split
    · have h1 := processAck_rp (env := e) r.rcd.fragment s
      have h2 : queue (processAck e r.rcd.fragment s).2 = queue s :=
        congrArg (fun p : RxPart => (p.rx, p.cfg)) h1
      rw [bind_snd]; split <;> exact h2
    split
    · unfold classifyAlert
      split; · rfl
      split; · rfl
      split <;> rfl
    split <;> rfl
  induction l generalizing acc s with
  | nil => rfl
  | cons r l ih =>
    unfold classifyAll
    rw [bind_snd]
    split
    · rename_i s' _
      have h1 := one r s
      cases s' <;> exact (ih ..).trans h1
    · exact one r s

theorem recordsParse_queue (e : Env) (p : Bytes) (s : Eng) : queue (recordsParse e p s).2 = queue s := by
  unfold recordsParse
  rw [bind_snd]
  split
  · rename_i s' _
    have h1 := parseSlices_queue e (split13 p).1 (split13 p).2 [] s
    exact (classifyAll_queue ..).trans h1
  · exact parseSlices_queue ..

/-- **C19 (DTLS 1.3), overflow.** With a full queue, a datagram that has records left after parsing is
answered with `ReceiveQueueFull` and is not stored. -/
theorem rx_full (s : Ses R.St) (p : Bytes) (hf : R.first s.st = false)
    (hl : s.eng.rx.length ≥ s.eng.cfg.maxRx) {rs : List Rx} {e : Eng}
    (hp : recordsParse env.toEnv p s.eng = (.ok rs, e)) (hne : rs ≠ []) :
    (call R env s (.packet p)).1 = .res (.err .receiveQueueFull) ∧
    (call R env s (.packet p)).2.eng.rx = s.eng.rx := by
  have hx : e.rx = s.eng.rx ∧ e.cfg = s.eng.cfg := by
    have := recordsParse_queue env.toEnv p s.eng
    rw [hp] at this
    exact ⟨congrArg (·.1) this, congrArg (·.2) this⟩
  have h1 : parsePacket env.toEnv p s.eng = (.fail (.fatal .receiveQueueFull), e) := by
    show M.andThen (recordsParse env.toEnv p s.eng) _ = _
    rw [hp]
    cases rs with
    | nil => exact absurd rfl hne
    | cons r rs =>
      simp only [M.andThen]
      unfold insertIncoming
      rw [if_pos (by rw [hx.1, hx.2]; exact hl)]
  rw [call_packet s p hf, h1]
  exact ⟨rfl, hx.1⟩

theorem call_empty (s : Ses R.St) (hf : R.first s.st = false) : call R env s (.packet []) =
    match progress R env progressFuel s with
    | (.ok _, s') => (.res .ok, settle R s')
    | (.fail f, s') => (.res (toApi (.fail f : Res Unit)), s') := by
  rw [call_packet s [] hf]; rfl

/-! ## C03 -/

/-- No record of the datagram is an unprotected handshake record. -/
def NoClearHandshake (p : Bytes) : Prop :=
  ∀ sl ∈ (split13 p).1, ∀ rest r, parse13 sl = .ok rest r → r.ctype ≠ ctHandshake

/-- The state of the receive side that records move: keys, windows and expected numbers of all epochs,
expected message, close alert, transcript, and what has been delivered. -/
def receiveState (e : Eng) := (e.hsRecv, e.hsExpected, e.hsReplay, e.appRecv, e.peerEnc, e.peerSeq, e.release,
  e.closeSeq, e.closeReported, e.transcript, e.log.filter Ev.isRx)

/-- **C03 (DTLS 1.3).** In every reachable state with the peer's encryption on, a datagram in which no
protected record opens, and without unprotected handshake records, is like an empty datagram, or leaves the
whole session as it is and returns Ok. -/
theorem forged_moves_nothing (h : Start env cfg R s0) (hk : SuitesKnown env.toEnv) (cs : List Call) (p : Bytes) :
    let s := (run R env s0 cs).2
    s.eng.peerEnc = true → R.first s.st = false → Unopened env.toEnv s.eng p → NoClearHandshake p →
    call R env s (.packet p) = call R env s (.packet []) ∨ call R env s (.packet p) = (.res .ok, s) := by
  intro s hp hf hu hx
  have hi := h.suiteInv cs
  rw [call_empty s hf, call_packet s p hf]
  cases parsePacket_unopened hp (hi.tag hk (hi.enc hp)) hu with
  | dropped g => rw [g]; exact .inl rfl
  | transient g => rw [g]; exact .inr rfl
  | clear rs hne hc g =>
    cases rs with
    | nil => exact absurd rfl hne
    | cons r rs =>
      obtain ⟨⟨sl, h1, rest, rcd, _, h2, rfl⟩, h3⟩ := hc r List.mem_cons_self
      exact absurd h3 (hx sl h1 rest rcd h2)

/-- **C03 (DTLS 1.3), with unprotected records mixed in.** Parsing any datagram in which no protected record
opens leaves the receive state as it is; at most unprotected handshake records are queued. -/
theorem unopened_keeps_receive_state (h : Start env cfg R s0) (hk : SuitesKnown env.toEnv) (cs : List Call)
    (p : Bytes) :
    let e := (run R env s0 cs).2.eng
    e.peerEnc = true → Unopened env.toEnv e p →
    receiveState (parsePacket env.toEnv p e).2 = receiveState e := by
  intro e hp hu
  have hi := h.suiteInv cs
  have hfl : receiveState (flightResend env.toEnv e).2 = receiveState e := by
    have h1 := flightResend_rp (env := env.toEnv) e
    have h2 := flightResend_sp (env := env.toEnv) e
    have key : ∀ a b : Eng, a.rp = b.rp → a.sp = b.sp → receiveState a = receiveState b := by
      intro a b g1 g2
      simp only [Eng.rp, RxPart.mk.injEq] at g1
      simp only [Eng.sp, Prod.mk.injEq] at g2
      simp only [receiveState, g1, g2]
    exact key _ _ h1 h2
  have hin : ∀ rs (e1 : Eng), receiveState (insertHs env.toEnv rs e1).2 = receiveState e1 := by
    intro rs e1
    unfold insertHs
    dsimp only
    split
    · rfl
    · split
      · rfl
      · split <;> rfl
  have ht : ∀ rs hs (e1 : Eng), receiveState (insertHandshakeTail env.toEnv rs hs e1).2 = receiveState e1 := by
    intro rs hs e1
    unfold insertHandshakeTail
    split
    · rfl
    split
    · rfl
    exact hin rs e1
  cases parsePacket_unopened hp (hi.tag hk (hi.enc hp)) hu with
  | dropped g => rw [g]
  | transient g => rw [g]
  | clear rs hne hc g =>
    rw [g]
    unfold insertIncoming
    split
    · rfl
    cases rs with
    | nil => rfl
    | cons r tl =>
    cases hh : r.hss with
    | cons hs _ =>
      simp only [hh]
      have hm : receiveState (maybeResend env.toEnv (r :: tl) e).2 = receiveState e := by
        unfold maybeResend
        split
        · split
          · exact hfl
          · rfl
        · rfl
      show receiveState (M.andThen (maybeResend env.toEnv (r :: tl) e) _).2 = _
      cases hr : maybeResend env.toEnv (r :: tl) e with
      | mk o e1 =>
        rw [hr] at hm
        cases o with
        | fail f => exact hm
        | ok _ => exact (ht ..).trans hm
    | nil =>
      simp only [hh]
      unfold insertBySeq
      dsimp only
      split <;> rfl

/-! ## C24 -/

theorem not_first_app (h : Start env cfg R s0) : R.first R.app = false := by cases h <;> rfl

/-- **C24 (DTLS 1.3), partial.** A connected session that has nothing else to do is left exactly as it is by
any datagram in which no protected record opens and no unprotected handshake record occurs. What is missing
are unprotected handshake records: those change keys (`forged_key_update`), return an error
(`forged_renegotiation`) and block the receive queue (`forged_stub_blocks`). -/
theorem unauthenticated_ignored_partial (h : Start env cfg R s0) (hk : SuitesKnown env.toEnv) (cs : List Call)
    (p : Bytes) :
    let s := (run R env s0 cs).2
    s.st = R.app → call R env s (.packet []) = (.res .ok, s) → Unopened env.toEnv s.eng p → NoClearHandshake p →
    call R env s (.packet p) = (.res .ok, s) := by
  intro s h1 h2 hu hx
  have hp := h.released cs (h.connected cs h1)
  have hf : R.first s.st = false := by rw [h1]; exact not_first_app h
  rcases forged_moves_nothing h hk cs p hp hf hu hx with g | g
  · exact g.trans h2
  · exact g

/-- Any number of such datagrams, in any order: the session is the same afterwards, so what is genuine is
treated as if they had not been sent. -/
theorem flood_ignored_partial (h : Start env cfg R s0) (hk : SuitesKnown env.toEnv) (cs : List Call)
    (ps : List Bytes) (more : List Call) :
    let s := (run R env s0 cs).2
    s.st = R.app → call R env s (.packet []) = (.res .ok, s) →
    (∀ p ∈ ps, Unopened env.toEnv s.eng p ∧ NoClearHandshake p) →
    run R env s (ps.map .packet ++ more) =
      (ps.map (fun _ => .res .ok) ++ (run R env s more).1, (run R env s more).2) := by
  intro s h1 h2 hu
  induction ps with
  | nil => rfl
  | cons p ps ih =>
    have hp := hu p List.mem_cons_self
    have g := unauthenticated_ignored_partial h hk cs p h1 h2 hp.1 hp.2
    have ih := ih fun q hq => hu q (List.mem_cons_of_mem _ hq)
    have e : run R env s (.packet p :: (ps.map .packet ++ more)) =
        if (call R env s (.packet p)).1 = .res .panic ∨ (call R env s (.packet p)).1 = .res .diverge ∨
            (call R env s (.packet p)).1 = .out .panic then
          ([(call R env s (.packet p)).1], (call R env s (.packet p)).2)
        else ((call R env s (.packet p)).1 :: (run R env (call R env s (.packet p)).2 (ps.map .packet ++ more)).1,
          (run R env (call R env s (.packet p)).2 (ps.map .packet ++ more)).2) := rfl
    show run R env s (.packet p :: (ps.map .packet ++ more)) = _
    rw [e, show call R env s (.packet p) = (.res .ok, s) from g]
    simp only [reduceCtorEq]
    rw [ih]
    rfl

/-- A protected record that does not open, an unprotected alert and an unprotected acknowledgement. -/
def junk : Bytes := [47, 0, 9, 0, 30] ++ List.replicate 30 3
def alert : Bytes := [21, 254, 253, 0, 0, 0, 0, 0, 0, 0, 9, 0, 2, 2, 40]
def ack : Bytes := [26, 254, 253, 0, 0, 0, 0, 0, 0, 0, 9, 0, 2, 0, 0]

theorem suites_known_demo (g : List Nat) (a b : Bool) : SuitesKnown (Demo.env g a b).toEnv := by
  intro cs h
  have : cs = 0x1301 := by
    have h : [0x1301].contains cs = true := h
    simpa using h
  rw [this]
  rfl

/-- The hypotheses are met: connected, nothing to do, datagrams of all three kinds. -/
example : let s : Ses SSt := (Demo.serverRun Demo.plainEnv []).2
    s.st = .awaitApplicationData ∧ s.eng.peerEnc = true ∧
    [[], junk, alert, ack].all (fun p => decide ((call S13.role Demo.plainEnv s (.packet p)).1 = .res .ok ∧
      (call S13.role Demo.plainEnv s (.packet p)).2.eng = s.eng)) = true := by decide +kernel

/-- An unprotected KeyUpdate with message number `q`. -/
def forgedKeyUpdate (q : UInt8) : Bytes :=
  [22, 254, 253, 0, 0, 0, 0, 0, 0, 0, q, 0, 13, 24, 0, 0, 1, 0, q, 0, 0, 0, 0, 0, 1, 0]

/-- Data of the connected client. -/
def genuine : List Bytes := Demo.clientSays Demo.plainEnv [.send [1, 2, 3], .poll 2000]

/-- C24 fails: four unprotected KeyUpdates make a connected server forget the client's keys, and genuine
data that would have been delivered is dropped. -/
theorem forged_key_update :
    let s : Ses SSt := (Demo.serverRun Demo.plainEnv []).2
    let late := genuine.map Call.packet ++ [.poll 2000]
    s.st = .awaitApplicationData ∧
    .eng (.appData [1, 2, 3]) ∈ outputs (run S13.role Demo.plainEnv s late).1 ∧
    .eng (.appData [1, 2, 3]) ∉ outputs (run S13.role Demo.plainEnv s
      ([2, 3, 4, 5].map (fun q => Call.packet (forgedKeyUpdate q)) ++ late)).1 := by decide +kernel

/-- An unprotected ClientHello with a high message number. -/
def forgedHello : Bytes := [22, 254, 253, 0, 0, 0, 0, 0, 0, 0, 9, 0, 12, 1, 0, 0, 0, 0, 9, 0, 0, 0, 0, 0, 0]

/-- C24 fails: an unprotected handshake message makes a connected session return an error. -/
theorem forged_renegotiation :
    let s : Ses SSt := (Demo.serverRun Demo.plainEnv []).2
    s.st = .awaitApplicationData ∧
    (call S13.role Demo.plainEnv s (.packet forgedHello)).1 = .res (.err .renegotiation) := by decide +kernel

/-- An unprotected handshake record too short for a message. -/
def stub : Bytes := [22, 254, 253, 0, 0, 0, 0, 0, 0, 0, 0, 0, 1, 7]

/-- Thirty data records, each delivered before the next arrives. -/
def traffic : List Call :=
  ((Demo.clientSays Demo.plainEnv ((List.replicate 30 [Call.send [1], .poll 2000]).flatten)).map
    fun p => [Call.packet p, .poll 2000]).flatten

/-- C24 fails: one unprotected record without any message stays at the head of the receive queue for good.
Nothing behind it is removed, so a session that would have handled any amount of data answers genuine data
with an error once the queue has filled up. -/
theorem forged_stub_blocks :
    let s : Ses SSt := (Demo.serverRun Demo.plainEnv []).2
    s.st = .awaitApplicationData ∧
    .res (.err .receiveQueueFull) ∉ (run S13.role Demo.plainEnv s traffic).1 ∧
    .res (.err .receiveQueueFull) ∈ (run S13.role Demo.plainEnv s (.packet stub :: traffic)).1 := by
  decide +kernel

/-! ## C23 -/

theorem recordParse_quiet {e : Env} {s : Eng} (hs : s.peerEnc = true → ∃ suite t, s.suite = some suite ∧ s.tag e = some t)
    (sl : Bytes) : ∃ o s', recordParse e sl s = (.ok o, s') ∧ s'.peerEnc = s.peerEnc ∧ s'.suite = s.suite := by
  have same : ∀ o : Option Rx, ∃ o' s', ((.ok o, s) : Res (Option Rx) × Eng) = (.ok o', s') ∧
      s'.peerEnc = s.peerEnc ∧ s'.suite = s.suite := fun o => ⟨o, s, rfl, rfl, rfl⟩
  unfold recordParse
  cases hc : (isCiphertextHeader (flagsOf sl) && s.peerEnc) with
  | false =>
    simp only [if_neg Bool.false_ne_true]
    cases g : parse13 sl with
    | panic => exact absurd g (parse13_total _)
    | ok rest r => exact same _
    | error => exact same _
    | failure => exact same _
  | true =>
    rw [Bool.and_eq_true] at hc
    have ht := hs hc.2
    obtain ⟨m, hm⟩ := unmask_cases ht sl
    simp only [if_true, hm]
    cases g : parse13 (unmaskWith m sl) with
    | panic => exact absurd g (parse13_total _)
    | error => exact same _
    | failure => exact same _
    | ok rest r =>
      obtain ⟨suite, t, h1, h2⟩ := ht
      dsimp only
      unfold openRecord
      dsimp only
      split; · exact same _
      rw [h2]
      dsimp only
      split; · exact same _
      split; · exact same _
      split
      · exact same _
      · rename_i _ k _ _ plain _
        have : ∀ a b c d, (noteOpened s k a b plain c d).peerEnc = s.peerEnc ∧
            (noteOpened s k a b plain c d).suite = s.suite := by
          intro a b c d
          unfold noteOpened Eng.replayUpdate
          split <;> exact ⟨rfl, rfl⟩
        split
        · exact ⟨_, _, rfl, this ..⟩
        · exact ⟨_, _, rfl, this ..⟩

/-- How reading the records of a datagram can end. -/
theorem parseSlices_quiet {e : Env} (sls : List Bytes) (d : SplitEnd) (acc : List Rx) {s : Eng}
    (hs : s.peerEnc = true → ∃ suite t, s.suite = some suite ∧ s.tag e = some t) :
    (parseSlices e sls d acc s).1 = .fail .transient ∨
    (∃ rs, (parseSlices e sls d acc s).1 = .ok rs ∧ d ≠ .incomplete) := by
  induction sls generalizing acc s with
  | nil =>
    cases d with
    | incomplete => exact .inl rfl
    | done => exact .inr ⟨_, rfl, nofun⟩
    | discardRest => exact .inr ⟨_, rfl, nofun⟩
  | cons sl rest ih =>
    obtain ⟨o, s', h1, h2, h3⟩ := recordParse_quiet hs sl
    have e0 : parseSlices e (sl :: rest) d acc s = M.andThen (recordParse e sl s) fun r =>
      match r with
      | none => parseSlices e rest d acc
      | some rx => if acc.length ≥ 16 then M.transient else parseSlices e rest d (acc ++ [rx]) := rfl
    have hs' : s'.peerEnc = true → ∃ suite t, s'.suite = some suite ∧ s'.tag e = some t := by
      unfold Eng.tag; rw [h2, h3]; exact hs
    rw [e0, h1]
    cases o with
    | none => exact ih acc hs'
    | some r =>
      simp only [M.andThen]
      split
      · exact .inl rfl
      · exact ih _ hs'

/-- **C23 (DTLS 1.3), framing.** A datagram that ends inside a record never makes a call fail or panic, in any
reachable state: the call returns Ok whatever records the datagram begins with. The exception is a server that
senses the version and keeps a bounded number of first datagrams. -/
theorem truncated_is_silent (h : Start env cfg R s0) (hk : SuitesKnown env.toEnv)
    (cs : List Call) (p : Bytes) (hp : (split13 p).2 = .incomplete) :
    let s := (run R env s0 cs).2
    R.first s.st = false → (call R env s (.packet p)).1 = .res .ok := by
  intro s hf
  have hi := h.suiteInv cs
  have h1 := parseSlices_quiet (split13 p).1 (split13 p).2 [] (s := s.eng) fun g => hi.tag hk (hi.enc g)
  have e0 : parsePacket env.toEnv p s.eng = M.andThen (M.andThen (parseSlices env.toEnv (split13 p).1 (split13 p).2 [] s.eng)
      fun rs => classifyAll env.toEnv rs []) fun rs => match rs with | [] => M.pure () | _ => insertIncoming env.toEnv rs := rfl
  rw [call_packet s p hf, e0]
  cases hp' : parseSlices env.toEnv (split13 p).1 (split13 p).2 [] s.eng with
  | mk o e =>
    rw [hp'] at h1
    rcases h1 with g | ⟨_, _, g⟩
    · have g : o = _ := g
      subst g
      rfl
    · exact absurd hp g

/-- **C23 (DTLS 1.3), headers.** A datagram none of whose slices is a record of this protocol is like an empty
datagram or leaves the session as it is, in any state. A record under a ciphertext header parses
whatever follows; while the peer's encryption is off it is kept for later. -/
theorem garbage_is_silent (s : Ses R.St) (p : Bytes) (hf : R.first s.st = false)
    (hp : ∀ sl ∈ (split13 p).1, isCiphertextHeader (flagsOf sl) = false ∧ ∀ rest r, parse13 sl ≠ .ok rest r) :
    call R env s (.packet p) = call R env s (.packet []) ∨ call R env s (.packet p) = (.res .ok, s) := by
  have h1 : ∀ sls : List Bytes, ∀ e,
      (∀ sl ∈ sls, isCiphertextHeader (flagsOf sl) = false ∧ ∀ rest r, parse13 sl ≠ .ok rest r) →
      parseSlices env.toEnv sls e [] s.eng = (.ok [], s.eng) ∨
      parseSlices env.toEnv sls e [] s.eng = (.fail .transient, s.eng) := by
    intro sls e hs
    induction sls with
    | nil => cases e <;> simp [parseSlices, M.pure, M.transient, M.fail]
    | cons sl sls ih =>
      have ih := ih fun x hx => hs x (List.mem_cons_of_mem _ hx)
      obtain ⟨g1, g2⟩ := hs sl List.mem_cons_self
      have g : recordParse env.toEnv sl s.eng = (.ok none, s.eng) := by
        unfold recordParse
        simp only [g1, Bool.false_and, if_neg Bool.false_ne_true]
        cases hpr : parse13 sl with
        | ok rest rx => exact absurd hpr (g2 _ _)
        | panic => exact absurd hpr (parse13_total _)
        | error => rfl
        | failure => rfl
      show M.andThen (recordParse env.toEnv sl s.eng) _ = _ ∨ M.andThen (recordParse env.toEnv sl s.eng) _ = _
      rw [g]
      exact ih
  have e0 : parsePacket env.toEnv p s.eng = M.andThen (M.andThen (parseSlices env.toEnv (split13 p).1 (split13 p).2 [] s.eng)
      fun rs => classifyAll env.toEnv rs []) fun rs => match rs with | [] => M.pure () | _ => insertIncoming env.toEnv rs := rfl
  rw [call_empty s hf, call_packet s p hf, e0]
  rcases h1 _ (split13 p).2 hp with g | g
  · rw [g]; exact .inl rfl
  · rw [g]; exact .inr rfl

/-- Both kinds occur: half a record, and a record of another protocol version. -/
example : (split13 [22, 254, 253, 0, 0, 0, 0, 0, 0, 0, 0, 0, 9, 1, 2]).2 = .incomplete ∧
    ∀ sl ∈ (split13 [22, 3, 3, 0, 0, 0, 0, 0, 0, 0, 0, 0, 1, 7]).1, isCiphertextHeader (flagsOf sl) = false ∧
      (parse13 sl = .error ∨ parse13 sl = .failure) := by decide

/-! ## C21 -/

theorem purge_purge (s : Eng) : purge (purge s) = purge s := by
  have h : ∀ (f : List Rx → Bool) (l : List (List Rx)), (l.dropWhile f).dropWhile f = l.dropWhile f := by
    intro f l
    induction l with
    | nil => rfl
    | cons a l ih => by_cases g : f a <;> simp [g, ih]
  unfold purge
  simp only [h]

/-- Scheduling an acknowledgement changes at most its deadline. -/
theorem scheduleAck_only (now : Nat) (s : Eng) : ∃ d, scheduleAck now s = { s with ackDeadline := d } := by
  unfold scheduleAck
  split
  · exact ⟨_, rfl⟩
  split
  · exact ⟨s.ackDeadline, rfl⟩
  split
  · exact ⟨s.ackDeadline, rfl⟩
  exact ⟨_, rfl⟩

theorem scheduleAck_twice (now : Nat) (s : Eng) : scheduleAck now (scheduleAck now s) = scheduleAck now s := by
  have hp : ∀ d, inProgress { s with ackDeadline := d } = inProgress s := fun _ => rfl
  unfold scheduleAck
  split
  · rename_i g
    simp only [hp, g, if_true]
  split
  · simp_all
  split
  · simp_all
  · simp_all

theorem rest_too_small {e : Eng} {now n k : Nat} (h : (pollRest n now e).1 = .bufferTooSmall k) :
    n < k ∧ (pollRest n now e).2 = scheduleAck now e ∧
    (∀ m, m < k → pollRest m now e = (.bufferTooSmall k, scheduleAck now e)) ∧
    (∀ m, k ≤ m → ∃ d : Bytes, d.length = k ∧ ((pollRest m now e).1 = .appData d ∨
      (pollRest m now e).1 = .packet d)) := by
  unfold pollRest at *
  dsimp only at *
  cases ht : (scheduleAck now e).tx with
  | nil =>
    simp only [ht] at h
    split at h <;> cases h
  | cons p rest =>
    simp only [ht] at h ⊢
    split at h
    · rename_i hl
      cases h
      refine ⟨hl, by rw [if_pos hl], fun m hm => by rw [if_pos hm], fun m hm => ?_⟩
      rw [if_neg (by omega)]
      exact ⟨_, rfl, .inr rfl⟩
    · cases h

theorem pollOutput_again (n now : Nat) (s : Eng) :
    pollOutput n now (purge s) = pollOutput n now s ∧
    (((purge s).release = false ∨ nextApp (purge s) = none) →
      pollOutput n now (scheduleAck now (purge s)) = pollOutput n now s) := by
  have h1 : pollOutput n now (purge s) = pollOutput n now s := by
    unfold pollOutput
    rw [purge_purge]
  refine ⟨h1, fun hn => ?_⟩
  obtain ⟨d, hd⟩ := scheduleAck_only now (purge s)
  have hp : purge (scheduleAck now (purge s)) = scheduleAck now (purge s) := by
    rw [hd]
    have := congrArg (fun e : Eng => { e with ackDeadline := d }) (purge_purge s)
    exact this
  have hr : pollRest n now (scheduleAck now (purge s)) = pollRest n now (purge s) := by
    unfold pollRest
    rw [scheduleAck_twice]
  have hrel : (scheduleAck now (purge s)).release = (purge s).release := by rw [hd]
  have happ : nextApp (scheduleAck now (purge s)) = nextApp (purge s) := by rw [hd]; rfl
  unfold pollOutput
  dsimp only
  rw [hp, hrel, happ, hr]
  rcases hn with g | g
  · simp only [g, if_neg Bool.false_ne_true]
  · simp only [g]

/-- **C21 (DTLS 1.3).** If a poll says that the buffer is too small and `k` bytes are needed, then the buffer
was smaller than that; polling again with fewer than `k` bytes says the same; and polling with at least `k`
bytes gives what polling with them in the first place would have given: a datagram or application data of
exactly `k` bytes. So nothing is lost. -/
theorem too_small_loses_nothing (s : Ses R.St) (n k : Nat) (h : (pollM R n s).1 = .eng (.bufferTooSmall k)) :
    n < k ∧
    (∀ m, m < k → pollM R m (pollM R n s).2 = (.eng (.bufferTooSmall k), (pollM R n s).2)) ∧
    (∀ m, k ≤ m → pollM R m (pollM R n s).2 = pollM R m s ∧
      ∃ d : Bytes, d.length = k ∧ ((pollM R m s).1 = .eng (.appData d) ∨ (pollM R m s).1 = .eng (.packet d))) := by
  have he : s.events = [] := by
    unfold pollM at h
    split at h
    · rename_i e rest g
      cases e with
      | peerCert =>
        simp only [eventOutput] at h
        split at h
        · cases h
        · split at h <;> cases h
      | _ => cases h
    · assumption
  have ep : ∀ (e : Eng) m, pollM R m { s with eng := e } =
      (.eng (pollOutput m s.lastNow e).1, { s with eng := (pollOutput m s.lastNow e).2 }) := by
    intro e m; unfold pollM; simp only [he]
  have e0 : ∀ m, pollM R m s = (.eng (pollOutput m s.lastNow s.eng).1, { s with eng := (pollOutput m s.lastNow s.eng).2 }) :=
    fun m => ep s.eng m
  rw [e0 n] at h ⊢
  simp only [Output.eng.injEq] at h
  have key : n < k ∧
      (∀ m, pollOutput m s.lastNow (pollOutput n s.lastNow s.eng).2 = pollOutput m s.lastNow s.eng) ∧
      (∀ m, m < k → pollOutput m s.lastNow s.eng = (.bufferTooSmall k, (pollOutput n s.lastNow s.eng).2)) ∧
      (∀ m, k ≤ m → ∃ d : Bytes, d.length = k ∧ ((pollOutput m s.lastNow s.eng).1 = .appData d ∨
        (pollOutput m s.lastNow s.eng).1 = .packet d)) := by
    by_cases hr : (purge s.eng).release = true
    · cases hn : nextApp (purge s.eng) with
      | some r =>
        have hx : ∀ m, m < r.rcd.fragment.length →
            pollOutput m s.lastNow s.eng = (.bufferTooSmall r.rcd.fragment.length, purge s.eng) := by
          intro m hm
          unfold pollOutput
          simp only [hr, if_true, hn, hm]
        have hy : ∀ m, r.rcd.fragment.length ≤ m →
            (pollOutput m s.lastNow s.eng).1 = .appData r.rcd.fragment := by
          intro m hm
          unfold pollOutput
          simp only [hr, if_true, hn, Nat.not_lt.mpr hm, if_false]
        rcases Nat.lt_or_ge n r.rcd.fragment.length with hl | hl
        · rw [hx n hl] at h ⊢
          cases h
          exact ⟨hl, fun m => (pollOutput_again m _ _).1, hx, fun m hm => ⟨_, rfl, .inl (hy m hm)⟩⟩
        · rw [hy n hl] at h; cases h
      | none =>
        have hx : ∀ m, pollOutput m s.lastNow s.eng = pollRest m s.lastNow (purge s.eng) := by
          intro m; unfold pollOutput; simp only [hr, if_true, hn]
        rw [hx n] at h
        obtain ⟨k1, k2, k3, k4⟩ := rest_too_small h
        rw [hx n, k2]
        refine ⟨k1, fun m => (pollOutput_again m _ _).2 (.inr hn), fun m hm => by rw [hx m, k3 m hm], fun m hm => ?_⟩
        rw [hx m]; exact k4 m hm
    · have hr := Bool.eq_false_iff.mpr hr
      have hx : ∀ m, pollOutput m s.lastNow s.eng = pollRest m s.lastNow (purge s.eng) := by
        intro m; unfold pollOutput; simp only [hr, if_neg Bool.false_ne_true]
      rw [hx n] at h
      obtain ⟨k1, k2, k3, k4⟩ := rest_too_small h
      rw [hx n, k2]
      refine ⟨k1, fun m => (pollOutput_again m _ _).2 (.inl hr), fun m hm => by rw [hx m, k3 m hm], fun m hm => ?_⟩
      rw [hx m]; exact k4 m hm
  obtain ⟨k1, k2, k3, k4⟩ := key
  refine ⟨k1, fun m hm => ?_, fun m hm => ?_⟩
  · rw [ep, k2, k3 m hm]
  · rw [ep, k2, e0 m]
    obtain ⟨d, g1, g2⟩ := k4 m hm
    refine ⟨rfl, d, g1, ?_⟩
    rcases g2 with g | g
    · exact .inl (by rw [g])
    · exact .inr (by rw [g])

/-- A short buffer, a shorter one, and one that is long enough. -/
example : (run C13.role Demo.plainEnv (C13.start Demo.plainEnv Demo.cfg 0)
    [.timeout 0, .poll 50, .poll 3, .poll 100]).1.map (fun | .out (.eng (.bufferTooSmall k)) => k | .out (.eng (.packet p)) => 1000 + p.length | _ => 0) =
      [0, 61, 61, 1061] := by decide +kernel

/-- C21 fails for the peer certificate: with a short buffer the session panics. -/
theorem short_certificate_panics :
    (run C13.role Demo.plainEnv (C13.start Demo.plainEnv Demo.cfg 0)
      ((Demo.rounds Demo.plainEnv Demo.plainEnv 1).cCalls ++ [.poll 1])).1.getLast? = some (.out .panic) := by
  decide +kernel

/-! ## C22 -/

/-- C22 fails: a server that receives a ClientHello before the first timeout call panics. -/
theorem hello_before_timeout_panics :
    (run S13.role Demo.plainEnv (S13.start Demo.plainEnv Demo.cfg 0 false)
      ((Demo.rounds Demo.plainEnv Demo.plainEnv 1).sCalls.drop 1)).1 = [.res .panic] := by decide +kernel

end Verif.Props.Recv13

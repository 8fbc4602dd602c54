import Verif.Lemmas.Quiet12
import Verif.Props.App12
/-!
# What datagrams do to a DTLS 1.2 session (C03, C13, C19, C21, C22, C23, C24)
-/
namespace Verif.Props.Recv12
open Verif Verif.E12 Verif.Wire Verif.Aead Verif.M

variable {env : PEnv} {cfg : Cfg} {R : Role} {s0 : Ses R.St}

/-! ## C13 -/

/-- Numbers of the handshake messages consumed, oldest first. -/
def consumed (l : List Ev) : List Nat :=
  (l.filterMap fun | .consumed q _ _ => some q | _ => none).reverse

theorem countdown_eq (n : Nat) : (countdown n).reverse = List.range n := by
  induction n with
  | zero => rfl
  | succ n ih => simp [countdown, ih, List.range_succ]

theorem consumed_eq (l : List Ev) : consumed l = (consumedSeqs l).reverse := by
  unfold consumed
  congr 1
  induction l with
  | nil => rfl
  | cons e l ih => cases e <;> simp_all [consumedSeqs]

/-- **C13 (DTLS 1.2).** Whatever datagrams arrive and whatever is called, the handshake messages consumed
so far are numbers 0, 1, 2, … without gap or repetition. -/
theorem consumed_in_order (h : Start env cfg R s0) (cs : List Call) :
    ∃ n, consumed (run R env s0 cs).2.eng.log = List.range n := by
  have h0 : InOrder s0.eng := by unfold InOrder; rw [h.log0, h.peerSeq0]; rfl
  have := (h.steps' cs).inOrder h0
  exact ⟨_, by rw [consumed_eq, this, countdown_eq]⟩

example : consumed (Demo.clientRun Demo.certEnv []).2.eng.log = List.range 6 := by decide +kernel

/-! ## C19 -/

/-- **C19 (DTLS 1.2), bound.** -/
theorem rx_bounded (h : Start env cfg R s0) (hd : DecShort env.toEnv) (cs : List Call) :
    (run R env s0 cs).2.eng.rx.length ≤ cfg.maxRx := by
  have h1 := (h.rxInv hd cs).len
  have h2 : (run R env s0 cs).2.eng.cfg = cfg := by
    rw [← h.cfg0]
    refine Star.invariant (R := Step env.toEnv fun _ => True) (I := fun e => e.cfg = s0.eng.cfg) ?_
      (h.steps' cs) rfl
    intro a b hs ha
    cases hs with
    | core g => rw [(Core.keep g).cfg]; exact ha
    | suite cs g => rw [← ha]; unfold setCipherSuite; split <;> rfl
    | keys k g gs => exact ha
  rw [h2] at h1
  exact h1

/-- **C19 (DTLS 1.2), overflow.** With a full queue, a datagram that has records left after parsing is
answered with `ReceiveQueueFull` and is not stored. -/
theorem rx_full (s : Ses R.St) (p : Bytes) (hl : s.eng.rx.length ≥ s.eng.cfg.maxRx) {rs : List Rx} {e : Eng}
    (hp : recordsParse env.toEnv p s.eng = (.ok rs, e)) (hne : rs ≠ []) :
    (call R env s (.packet p)).1 = .res (.err .receiveQueueFull) ∧
    (call R env s (.packet p)).2.eng.rx = s.eng.rx := by
  have hf : RecvFrame s.eng e := by
    have := recordsParse_frame env.toEnv p s.eng
    rw [hp] at this
    exact this
  obtain ⟨_, _, _, _, _, he⟩ := hf
  have h1 : parsePacket env.toEnv p s.eng = (.fail (.fatal .receiveQueueFull), e) := by
    show M.andThen (recordsParse env.toEnv p s.eng) _ = _
    rw [hp]
    cases rs with
    | nil => exact absurd rfl hne
    | cons r rs =>
      simp only [M.andThen]
      unfold insertIncoming
      rw [if_pos (by rw [he]; exact hl)]
  have h2 : handlePacketM R env p s = (.fail (.fatal .receiveQueueFull), { s with eng := e }) := by
    show M.andThen (onEng (parsePacket env.toEnv p) s) _ = _
    simp only [onEng, M.zoom, h1]
    rfl
  show (let (r, s') := handlePacketM R env p s; ((.res (toApi r), s') : Ret × Ses R.St)).1 = _ ∧
    (let (r, s') := handlePacketM R env p s; ((.res (toApi r), s') : Ret × Ses R.St)).2.eng.rx = _
  rw [h2]
  exact ⟨rfl, by rw [he]⟩

/-! ## Calls -/

theorem call_packet (s : Ses R.St) (p : Bytes) : call R env s (.packet p) =
    match parsePacket env.toEnv p s.eng with
    | (.ok _, e) => (.res (toApi (progress R env progressFuel { s with eng := e }).1),
        (progress R env progressFuel { s with eng := e }).2)
    | (.fail f, e) => (.res (toApi (.fail f : Res Unit)), { s with eng := e }) := by
  have h2 : handlePacketM R env p s = M.andThen ((parsePacket env.toEnv p s.eng).1,
      { s with eng := (parsePacket env.toEnv p s.eng).2 }) fun _ => progress R env progressFuel := rfl
  show (let (r, s') := handlePacketM R env p s; ((.res (toApi r), s') : Ret × Ses R.St)) = _
  rw [h2]
  cases parsePacket env.toEnv p s.eng with
  | mk r e => cases r <;> rfl

theorem call_empty (s : Ses R.St) : call R env s (.packet []) =
    (.res (toApi (progress R env progressFuel s).1), (progress R env progressFuel s).2) := by
  rw [call_packet]; rfl

theorem step_app (h : Start env cfg R s0) : R.step env R.app = awaitApplicationData env R.app R.closed := by
  cases h <;> rfl

/-- Nothing to do in the connected state. -/
theorem progress_app (h : Start env cfg R s0) (s : Ses R.St) (hst : s.st = R.app) (hc : s.eng.closeRecv = false)
    (hq : s.queued = []) : progress R env progressFuel s = (.ok (), s) := by
  have h1 : R.step env s.st s = (.ok s.st, s) := by
    rw [hst, step_app h]
    unfold awaitApplicationData
    simp only [bind_eq, M.bind, M.get, M.andThen, hc]
    simp only [Bool.false_eq_true, if_false, drainQueued, bind_eq, M.bind, M.get, M.set, M.andThen, hq, drainLoop]
    cases s
    simp only at hq
    subst hq
    rfl
  show progress R env (39 + 1) s = _
  unfold progress
  simp only [M.get, M.andThen, bind_eq, M.bind, h1, if_true]
  rfl

/-! ## C03 -/

/-- Every record of the datagram that parses is protected. -/
def Protected (p : Bytes) : Prop :=
  ∀ sl ∈ (split12 p).1, ∀ rest r, parse12 sl 0 = .ok rest r → r.epoch ≠ 0

/-- **C03 (DTLS 1.2).** Once the peer's encryption is on, a datagram of protected records none of which
opens is like an empty datagram, or leaves the whole session as it is; then it is dropped silently, except
that before the handshake has completed it is answered with an error. -/
theorem forged_moves_nothing (s : Ses R.St) (p : Bytes) (hp : s.eng.peerEnc = true) (hk : s.eng.keys ≠ none)
    (hs : KeySane s.eng) (hu : Unopened env.toEnv s.eng p) (hx : Protected p) :
    call R env s (.packet p) = call R env s (.packet []) ∨ call R env s (.packet p) = (.res .ok, s) ∨
    (s.eng.release = false ∧ call R env s (.packet p) = (.res (.err .crypto), s)) := by
  rw [call_empty, call_packet]
  cases parsePacket_unopened hp hu with
  | dropped h => rw [h]; exact .inl rfl
  | transient h => rw [h]; exact .inr (.inl rfl)
  | crypto h hr => rw [h]; exact .inr (.inr ⟨hr, rfl⟩)
  | panic h g =>
    have := g hs
    unfold Eng.peerKey at this
    simp at this
    exact absurd this hk
  | full h hl g =>
    obtain ⟨sl, g1, rest, r, g2, g3⟩ := g
    exact absurd g3 (hx sl g1 rest r g2)
  | resend h hc g =>
    obtain ⟨sl, g1, rest, r, g2, g3⟩ := g
    exact absurd g3 (hx sl g1 rest r g2)

/-- **C03 (DTLS 1.2), with plaintext records mixed in.** The receive state is the same in any case: window,
expected message, queue, close flag, transcript and what has been delivered. -/
theorem unopened_keeps_receive_state (e : Eng) (p : Bytes) (hp : e.peerEnc = true) (hu : Unopened env.toEnv e p) :
    let e' := (parsePacket env.toEnv p e).2
    e'.replay = e.replay ∧ e'.peerSeq = e.peerSeq ∧ e'.rx = e.rx ∧ e'.closeRecv = e.closeRecv ∧
    e'.transcript = e.transcript ∧ e'.keys = e.keys ∧ e'.release = e.release ∧ e'.peerEnc = e.peerEnc ∧
    e'.confirmed = e.confirmed ∧ e'.timers = e.timers := by
  intro e'
  show (parsePacket env.toEnv p e).2.replay = _ ∧ (parsePacket env.toEnv p e).2.peerSeq = _ ∧ _
  cases parsePacket_unopened hp hu with
  | dropped h => simp only [e', h, and_self]
  | transient h => simp only [e', h, and_self]
  | crypto h hr => simp only [e', h, and_self]
  | panic h g => simp only [e', h, and_self]
  | full h hl g => simp only [e', h, and_self]
  | resend h hc g =>
    obtain ⟨_, _, _, _, _, _, _, hf⟩ := flightResend_frame env.toEnv e
    simp only [e', h, hf, and_self]

/-! ## C24 -/

/-- **C24 (DTLS 1.2), partial.** A connected session that has nothing else to do is left exactly as it is by
any datagram in which no record opens, provided the peer has confirmed the handshake and the receive queue is
not full. What is missing: with a full queue a plaintext handshake message is answered with an error
(`full_queue_error`), and an unconfirmed server retransmits its last flight (`unconfirmed_resends`), as the
protocol wants. -/
theorem unauthenticated_ignored_partial (h : Start env cfg R s0) (hd : DecShort env.toEnv)
    (hs : SuiteSane env.toEnv) (cs : List Call) (p : Bytes) :
    let s := (run R env s0 cs).2
    s.st = R.app → s.eng.closeRecv = false → s.queued = [] → s.eng.confirmed = true →
    s.eng.rx.length < s.eng.cfg.maxRx → Unopened env.toEnv s.eng p →
    call R env s (.packet p) = (.res .ok, s) := by
  intro s h1 h2 h3 h4 h5 hu
  obtain ⟨post, hh⟩ := h.hist hd cs
  have hrel : s.eng.release = true := hh.app h1
  have hpe : s.eng.peerEnc = true := hh.enc hrel
  have hk := h.app_keys cs h1
  have hks := (h.saneInv hs cs).keySane hs hk
  rw [call_packet]
  cases parsePacket_unopened hpe hu with
  | dropped g =>
    rw [g]
    simp only
    rw [progress_app h s h1 h2 h3]
    rfl
  | transient g => rw [g]; rfl
  | crypto g hr => rw [hrel] at hr; cases hr
  | panic g hk' =>
    have := hk' hks
    unfold Eng.peerKey at this
    simp at this
    exact absurd this hk
  | full g hl _ => omega
  | resend g hc _ => rw [h4] at hc; cases hc

/-- Any number of such datagrams, in any order: the session is the same afterwards, so what is genuine is
treated as if they had not been sent. -/
theorem flood_ignored_partial (h : Start env cfg R s0) (hd : DecShort env.toEnv)
    (hs : SuiteSane env.toEnv) (cs : List Call) (ps : List Bytes) (more : List Call) :
    let s := (run R env s0 cs).2
    s.st = R.app → s.eng.closeRecv = false → s.queued = [] → s.eng.confirmed = true →
    s.eng.rx.length < s.eng.cfg.maxRx → (∀ p ∈ ps, Unopened env.toEnv s.eng p) →
    run R env s (ps.map .packet ++ more) =
      (ps.map (fun _ => .res .ok) ++ (run R env s more).1, (run R env s more).2) := by
  intro s h1 h2 h3 h4 h5 hu
  induction ps with
  | nil => rfl
  | cons p ps ih =>
    have g := unauthenticated_ignored_partial h hd hs cs p h1 h2 h3 h4 h5 (hu p (List.mem_cons_self ..))
    have ih := ih fun q hq => hu q (List.mem_cons_of_mem _ hq)
    have e : run R env s (.packet p :: (ps.map .packet ++ more)) =
        if (call R env s (.packet p)).1 = .res .panic ∨ (call R env s (.packet p)).1 = .res .diverge ∨
            (call R env s (.packet p)).1 = .out .panic then
          ([(call R env s (.packet p)).1], (call R env s (.packet p)).2)
        else ((call R env s (.packet p)).1 :: (run R env (call R env s (.packet p)).2 (ps.map .packet ++ more)).1,
          (run R env (call R env s (.packet p)).2 (ps.map .packet ++ more)).2) := rfl
    show run R env s (.packet p :: (ps.map .packet ++ more)) = _
    rw [e, show call R env s (.packet p) = (.res .ok, s) from g]
    simp only [reduceCtorEq]
    rw [ih]
    rfl

theorem suite_sane_demo (auth : Auth) (suites : List Nat) (a b : Bool) :
    SuiteSane (Demo.env auth suites a b).toEnv where
  params cs e m h := by
    have h : Demo.params cs = some (e, m) := h
    unfold Demo.params at h
    split at h
    · cases h; exact ⟨.inr rfl, by decide⟩
    · split at h
      · cases h; exact ⟨.inl rfl, by decide⟩
      · cases h
  iv cs e m ms cr sr k h g := by
    have h : Demo.params cs = some (e, m) := h
    have g : some (_ : Keys) = some k := g
    cases g
    unfold Demo.params at h
    split at h
    · rename_i hc
      cases h
      have : cs ≠ 0xCCA9 := by omega
      simp [this]
    · split at h
      · rename_i hc
        cases h
        simp [hc]
      · cases h

/-- A plaintext ClientHello with an old number. -/
def staleHello : Bytes := [22, 254, 253, 0, 0, 0, 0, 0, 0, 0, 9, 0, 12, 1, 0, 0, 0, 0, 0, 0, 0, 0, 0, 0, 0]

/-- A protected record that does not open. -/
def junk : Bytes := [22, 254, 253, 0, 1, 0, 0, 0, 0, 0, 5, 0, 30] ++ List.replicate 30 3

/-- The hypotheses are met: a connected client, and datagrams of either kind. -/
example : let s := (Demo.clientRun Demo.pskEnv []).2
    s.st = .awaitApplicationData ∧ s.eng.closeRecv = false ∧ s.queued = [] ∧ s.eng.confirmed = true ∧
    s.eng.rx.length < s.eng.cfg.maxRx := by decide +kernel

example : let s := (Demo.clientRun Demo.pskEnv []).2
    (call C12.role Demo.pskEnv s (.packet junk)).1 = .res .ok ∧
    (call C12.role Demo.pskEnv s (.packet staleHello)).1 = .res .ok := by decide +kernel

/-- Thirty records for the application that it does not fetch. -/
def unread : List Call :=
  (Demo.serverSays Demo.pskEnv ((List.replicate 30 [Call.send [1], .poll 2000]).flatten)).map .packet

/-- C24 fails with a full receive queue: an unauthenticated datagram makes the connected session return an
error. -/
theorem full_queue_error :
    let s : Ses CSt := (run C12.role Demo.pskEnv (Demo.clientRun Demo.pskEnv []).2 unread).2
    s.st = .awaitApplicationData ∧
    (call C12.role Demo.pskEnv s (.packet staleHello)).1 = .res (.err .receiveQueueFull) := by decide +kernel

/-- An unconfirmed server answers an unauthenticated datagram by retransmitting. -/
theorem unconfirmed_resends :
    let s := (Demo.serverRun Demo.pskEnv []).2
    s.st = .awaitApplicationData ∧ s.eng.tx = [] ∧
    (call S12.role Demo.pskEnv s (.packet staleHello)).2.eng.tx ≠ [] := by decide +kernel

/-! ## C23 -/

/-- **C23 (DTLS 1.2), framing.** A datagram that does not split into whole records never makes a call fail,
before the peer's encryption is on and after the handshake: the call returns Ok whatever records the datagram
begins with. -/
theorem truncated_is_silent (h : Start env cfg R s0) (hd : DecShort env.toEnv) (hs : SuiteSane env.toEnv)
    (cs : List Call) (p : Bytes) (hp : (split12 p).2 ≠ .done) :
    let s := (run R env s0 cs).2
    s.eng.peerEnc = false ∨ s.eng.release = true → (call R env s (.packet p)).1 = .res .ok := by
  intro s hc
  have hi := h.saneInv hs cs
  have hco : CanOpen s.eng := fun g => ⟨hi.keySane hs (hi.enc g), hi.enc g⟩
  have h1 := parseSlices_quiet hd (split12 p).1 (split12 p).2 (split12_short p) [] s.eng hco
  have e0 : parsePacket env.toEnv p s.eng = M.andThen (M.andThen (parseSlices env.toEnv (split12 p).1 (split12 p).2 [] s.eng)
      fun rs => classifyAll rs []) fun rs => match rs with | [] => M.pure () | _ => insertIncoming env.toEnv rs := rfl
  rw [call_packet, e0]
  cases hp' : parseSlices env.toEnv (split12 p).1 (split12 p).2 [] s.eng with
  | mk o e =>
    rw [hp'] at h1
    rcases h1 with g | ⟨_, g1, g2⟩ | ⟨_, _, g⟩
    · have g : o = _ := g
      subst g
      rfl
    · rcases hc with g | g
      · rw [g1] at g; cases g
      · rw [g2] at g; cases g
    · exact absurd g hp

/-- **C23 (DTLS 1.2), headers.** A datagram none of whose slices is a record of this protocol (bad version,
bad type, lengths that do not fit) is like an empty datagram or leaves the session as it is, in any state. -/
theorem garbage_is_silent (s : Ses R.St) (p : Bytes)
    (hp : ∀ sl ∈ (split12 p).1, ∀ rest r, parse12 sl 0 ≠ .ok rest r) :
    call R env s (.packet p) = call R env s (.packet []) ∨ call R env s (.packet p) = (.res .ok, s) := by
  have h1 : ∀ sls : List Bytes, ∀ e, (∀ sl ∈ sls, ∀ rest r, parse12 sl 0 ≠ .ok rest r) →
      parseSlices env.toEnv sls e [] s.eng = (.ok [], s.eng) ∨
      parseSlices env.toEnv sls e [] s.eng = (.fail .transient, s.eng) := by
    intro sls e hs
    induction sls with
    | nil => cases e <;> simp [parseSlices, M.pure, M.transient, M.fail]
    | cons sl sls ih =>
      have ih := ih fun x hx => hs x (List.mem_cons_of_mem _ hx)
      have g : recordParse env.toEnv sl s.eng = (.ok none, s.eng) := by
        unfold recordParse
        cases hpr : parsedRecord sl 0 false with
        | ok rest rx => exact absurd (parsedRecord_ok hpr).1 (hs sl (List.mem_cons_self ..) _ _)
        | panic => exact absurd hpr (parsedRecord_total _ _)
        | error => rfl
        | failure => rfl
      show M.andThen (recordParse env.toEnv sl s.eng) _ = _ ∨ M.andThen (recordParse env.toEnv sl s.eng) _ = _
      rw [g]
      exact ih
  have e0 : parsePacket env.toEnv p s.eng = M.andThen (M.andThen (parseSlices env.toEnv (split12 p).1 (split12 p).2 [] s.eng)
      fun rs => classifyAll rs []) fun rs => match rs with | [] => M.pure () | _ => insertIncoming env.toEnv rs := rfl
  rw [call_empty, call_packet, e0]
  rcases h1 _ (split12 p).2 hp with g | g
  · rw [g]; exact .inl rfl
  · rw [g]; exact .inr rfl

/-- Both kinds occur: half a record, and a record of another protocol version. -/
example : (split12 [22, 254, 253, 0, 0, 0, 0, 0, 0, 0, 0, 0, 9, 1, 2]).2 ≠ .done ∧
    ∀ sl ∈ (split12 [22, 3, 3, 0, 0, 0, 0, 0, 0, 0, 0, 0, 1, 7]).1, (parse12 sl 0 = .error ∨ parse12 sl 0 = .failure) := by decide

/-- The calls of a client whose handshake completes, with `junk` arriving early. -/
def poisoned : List Call :=
  match Demo.clientCalls Demo.pskEnv with
  | c :: cs => c :: .packet junk :: cs
  | [] => []

/-- C23 fails during the handshake: a record that does not open is fatal. Without `junk` this client
connects; with it, a call returns an error and Connected never comes. -/
theorem junk_kills_handshake :
    let r := run C12.role Demo.pskEnv (C12.start Demo.pskEnv Demo.cfg 0) poisoned
    .connected ∈ outputs (Demo.clientRun Demo.pskEnv []).1 ∧
    .connected ∉ outputs r.1 ∧ .res (.err .crypto) ∈ r.1 := by decide +kernel

/-! ## C22 -/

theorem record_panic {St : Type} (hr : ∀ t, (env.rand t 8).length = 8) (c : UInt8) (d : Bytes) (s : Ses St)
    (hk : CanSeal s.eng) :
    wp (E12.onEng (createRecord env.toEnv c 1 false false d) : P St Unit) s
      (fun _ s' => CanSeal s'.eng ∧ s'.st = s.st) (fun f _ => ¬ Bad (.fail f : Res Unit)) := by
  have h1 := createRecord_panic env.toEnv c 1 false false d s.eng hk hr
  have h2 := (createRecord_frame env.toEnv c 1 false false d s.eng).canSeal hk
  rw [wp_onEng]
  apply wp_of
  · intro a s' he; rw [he] at h2; exact ⟨h2, rfl⟩
  · intro f s' he; rw [he] at h1; exact h1

theorem drain_panic {St : Type} (hr : ∀ t, (env.rand t 8).length = 8) (l : List Bytes) (s : Ses St)
    (hk : CanSeal s.eng) :
    wp (drainLoop env l : P St Unit) s (fun _ s' => s'.st = s.st) (fun f _ => ¬ Bad (.fail f : Res Unit)) := by
  induction l generalizing s with
  | nil => exact (rfl : s.st = s.st)
  | cons d l ih =>
    unfold drainLoop
    rw [bind_eq, wp_bind]
    refine wp_mono (record_panic hr _ _ _ hk) ?_ (fun _ _ h => h)
    rintro _ s' ⟨h1, h2⟩
    exact wp_mono (ih _ h1) (fun _ _ h => h.trans h2) (fun _ _ h => h)

/-- One step of the connected state. -/
theorem app_step_panic {St : Type} (hr : ∀ t, (env.rand t 8).length = 8) (s : Ses St) (hk : CanSeal s.eng) (a b : St) :
    wp (awaitApplicationData env a b) s (fun x _ => x = a ∨ x = b) (fun f _ => ¬ Bad (.fail f : Res Unit)) := by
  unfold awaitApplicationData
  simp only [bind_eq, pure_eq, wp_bind, wp_get]
  split
  · simp only [wp_bind, wp_onEng']
    refine wp_mono (record_panic hr _ _ _ ?_) ?_ (fun _ _ h => h)
    · exact fun h => ⟨(hk h).expl, (hk h).prot, (hk h).iv⟩
    · intro _ _ _; exact (.inr rfl)
  · unfold drainQueued
    simp only [bind_eq, wp_bind, wp_get, wp_set]
    refine wp_mono (drain_panic hr _ _ hk) ?_ (fun _ _ h => h)
    intro _ _ _; exact (.inl rfl)

theorem step_closed (h : Start env cfg R s0) : R.step env R.closed = M.pure R.closed := by
  cases h <;> rfl

theorem progress_panic (h : Start env cfg R s0) (hr : ∀ t, (env.rand t 8).length = 8) (s : Ses R.St)
    (hst : s.st = R.app) (hk : CanSeal s.eng) : ¬ Bad (progress R env progressFuel s).1 := by
  have h1 := app_step_panic (env := env) hr s hk R.app R.closed
  rw [← step_app h, ← hst] at h1
  have e1 : progress R env progressFuel s = M.andThen (R.step env s.st s) fun new =>
      if s.st = new then M.pure () else M.bind (M.modify fun s => { s with st := new }) fun _ => progress R env 39 := rfl
  rw [e1]
  cases hs : R.step env s.st s with
  | mk o s1 =>
    cases o with
    | fail f => have := wp_fail h1 hs; simpa [M.andThen, bad_fail] using this
    | ok x =>
      simp only [M.andThen]
      split
      · exact id
      · rename_i hne
        have hx : x = R.closed := (wp_ok h1 hs).resolve_left (fun g => hne g.symm)
        subst hx
        have e2 : progress R env 39 { s1 with st := R.closed } =
            M.andThen (R.step env R.closed { s1 with st := R.closed }) fun new =>
              if R.closed = new then M.pure () else M.bind (M.modify fun s => { s with st := new }) fun _ => progress R env 38 := rfl
        show ¬ Bad (progress R env 39 { s1 with st := R.closed }).1
        rw [e2, step_closed h]
        simp only [M.pure, M.andThen, if_true]
        exact id

/-- **C22 (DTLS 1.2), partial.** No datagram makes a connected session panic or loop, if every record that
opens has epoch 1 (which is what the peer seals). What is missing: the handshake, where two equal records
arriving early do (`duplicate_panics`). -/
theorem no_panic_when_connected_partial (h : Start env cfg R s0) (hd : DecShort env.toEnv) (hs : SuiteSane env.toEnv)
    (hse : SearchOk env.search) (hr : ∀ t, (env.rand t 8).length = 8) (cs : List Call) (p : Bytes) :
    let s := (run R env s0 cs).2
    s.st = R.app → EpochOne (parsePacket env.toEnv p s.eng).2.log →
    (call R env s (.packet p)).1 ≠ .res .panic ∧ (call R env s (.packet p)).1 ≠ .res .diverge := by
  intro s h1 hx
  obtain ⟨post, hh⟩ := h.hist hd cs
  have hpe : s.eng.peerEnc = true := hh.enc (hh.app h1)
  have hk := h.app_keys cs h1
  have hks := (h.saneInv hs cs).keySane hs hk
  have g := parsePacket_panic hd hse hr p hpe (h.rxInv hd cs) hk hks hx
  have hf := parsePacket_arrive env.toEnv p s.eng
  have aux : ∀ o : Res Unit, ¬ Bad o → Ret.res (toApi o) ≠ .res .panic ∧ Ret.res (toApi o) ≠ .res .diverge := by
    intro o ho
    cases o with
    | ok a => exact ⟨nofun, nofun⟩
    | fail f => cases f <;> first | exact absurd trivial ho | exact ⟨nofun, nofun⟩
  rw [call_packet]
  cases hp : parsePacket env.toEnv p s.eng with
  | mk o e =>
    rw [hp] at g hf
    cases o with
    | fail f => exact aux _ g
    | ok a =>
      refine aux _ (progress_panic h hr _ h1 ?_)
      obtain ⟨_, _, _, _, _, _, _, _, _, _, _, _, hf⟩ := hf
      have hf : e = _ := hf
      intro _
      show KeySane e
      rw [hf]
      exact ⟨hks.expl, hks.prot, hks.iv⟩

/-- The standard library's promise holds of the demo search. -/
theorem search_ok_demo : SearchOk Demo.search := by
  intro k cs
  unfold Demo.search
  cases h : cs.findIdx? (· == .eq) with
  | some i =>
    simp only
    obtain ⟨h1, h2, _⟩ := List.findIdx?_eq_some_iff_getElem.mp h
    rw [List.getElem?_eq_getElem h1]
    simpa using h2
  | none =>
    simp only
    have hne : ∀ c ∈ cs, c ≠ .eq := by simpa [List.findIdx?_eq_none_iff] using h
    clear h
    refine ⟨(List.takeWhile_sublist _).length_le, ?_⟩
    intro hp
    induction cs with
    | nil => simp
    | cons c cs ih =>
      have hp' := List.pairwise_cons.mp hp
      cases c with
      | lt =>
        have ih := ih (fun x hx => hne x (List.mem_cons_of_mem _ hx)) hp'.2
        simpa [List.takeWhile_cons] using ih
      | eq => exact absurd rfl (hne _ (List.mem_cons_self ..))
      | gt =>
        simp only [List.takeWhile_cons]
        refine ⟨by simp, ?_⟩
        intro c hc
        simp at hc
        rcases hc with rfl | hc
        · rfl
        · have := hp'.1 c hc
          cases c <;> simp_all [Ordering.ctorIdx]

/-- The hypotheses are met by the connected server and a datagram of the client. -/
example : (Demo.serverRun Demo.pskEnv []).2.st = .awaitApplicationData ∧
    (parsePacket Demo.pskEnv.toEnv ((Demo.clientSays Demo.pskEnv [.send [1], .poll 2000]).headD [])
      (Demo.serverRun Demo.pskEnv []).2.eng).2.log.all
        (fun | .opened _ _ _ _ _ _ e _ => e == 1 | _ => true) = true := by decide +kernel

/-- A record that claims to be protected. -/
def early : Bytes := [23, 254, 253, 0, 1, 0, 0, 0, 0, 0, 0, 0, 1, 7]

/-- C22 fails during the handshake: the same unauthenticated record twice makes a client panic. -/
theorem duplicate_panics :
    (run C12.role Demo.pskEnv (C12.start Demo.pskEnv Demo.cfg 0) [.timeout 0, .packet early, .packet early]).1 =
      [.res .ok, .res .ok, .res .panic] := by decide +kernel

/-! ## C21 -/

theorem purge_purge (s : Eng) : purge (purge s) = purge s := by
  have h : ∀ (f : List Rx → Bool) (l : List (List Rx)), (l.dropWhile f).dropWhile f = l.dropWhile f := by
    intro f l
    induction l with
    | nil => rfl
    | cons a l ih => by_cases g : f a <;> simp [g, ih]
  unfold purge
  simp only [h]

theorem pollOutput_purge (n now : Nat) (s : Eng) : pollOutput n now (purge s) = pollOutput n now s := by
  unfold pollOutput
  rw [purge_purge]

theorem rest_too_small {e : Eng} {now n k : Nat} (h : (pollRest n now e).1 = .bufferTooSmall k) :
    n < k ∧ (pollRest n now e).2 = e ∧
    (∀ m, m < k → pollRest m now e = (.bufferTooSmall k, e)) ∧
    (∀ m, k ≤ m → ∃ d : Bytes, d.length = k ∧ ((pollRest m now e).1 = .appData d ∨
      (pollRest m now e).1 = .packet d)) := by
  unfold pollRest at *
  cases ht : e.tx with
  | nil =>
    simp only [ht] at h
    split at h <;> cases h
  | cons p rest =>
    simp only [ht] at h ⊢
    split at h
    · rename_i hl
      cases h
      refine ⟨hl, by rw [if_pos hl], fun m hm => by rw [if_pos hm], fun m hm => ?_⟩
      rw [if_neg (by omega)]
      exact ⟨_, rfl, .inr rfl⟩
    · cases h

/-- **C21 (DTLS 1.2).** If a poll says that the buffer is too small and `k` bytes are needed, then the buffer
was smaller than that; polling again with fewer than `k` bytes says the same; and polling with at least `k`
bytes gives what polling with them in the first place would have given: a datagram or application data of
exactly `k` bytes. So nothing is lost. -/
theorem too_small_loses_nothing (s : Ses R.St) (n k : Nat) (h : (pollM R n s).1 = .eng (.bufferTooSmall k)) :
    n < k ∧
    (∀ m, m < k → pollM R m (pollM R n s).2 = (.eng (.bufferTooSmall k), (pollM R n s).2)) ∧
    (∀ m, k ≤ m → pollM R m (pollM R n s).2 = pollM R m s ∧
      ∃ d : Bytes, d.length = k ∧ ((pollM R m s).1 = .eng (.appData d) ∨ (pollM R m s).1 = .eng (.packet d))) := by
  have he : s.events = [] := by
    unfold pollM at h
    split at h
    · rename_i e rest g
      cases e with
      | peerCert =>
        simp only [eventOutput] at h
        split at h
        · cases h
        · split at h <;> cases h
      | _ => cases h
    · assumption
  have ep : ∀ (e : Eng) m, pollM R m { s with eng := e } =
      (.eng (pollOutput m s.lastNow e).1, { s with eng := (pollOutput m s.lastNow e).2 }) := by
    intro e m; unfold pollM; simp only [he]
  have e0 : ∀ m, pollM R m s = (.eng (pollOutput m s.lastNow s.eng).1, { s with eng := (pollOutput m s.lastNow s.eng).2 }) :=
    fun m => ep s.eng m
  rw [e0 n] at h ⊢
  simp only [Output.eng.injEq] at h
  have key : n < k ∧ (pollOutput n s.lastNow s.eng).2 = purge s.eng ∧
      (∀ m, m < k → pollOutput m s.lastNow s.eng = (.bufferTooSmall k, purge s.eng)) ∧
      (∀ m, k ≤ m → ∃ d : Bytes, d.length = k ∧ ((pollOutput m s.lastNow s.eng).1 = .appData d ∨
        (pollOutput m s.lastNow s.eng).1 = .packet d)) := by
    unfold pollOutput at *
    dsimp only at *
    by_cases hr : (purge s.eng).release = true
    · simp only [hr, if_true] at h ⊢
      cases hn : nextApp (purge s.eng) with
      | some r =>
        simp only [hn] at h ⊢
        split at h
        · rename_i hl
          cases h
          refine ⟨hl, by rw [if_pos hl], fun m hm => by rw [if_pos hm], fun m hm => ?_⟩
          rw [if_neg (by omega)]
          exact ⟨_, rfl, .inl rfl⟩
        · cases h
      | none =>
        simp only [hn] at h ⊢
        exact rest_too_small h
    · simp only [hr] at h ⊢
      exact rest_too_small h
  obtain ⟨k1, k2, k3, k4⟩ := key
  refine ⟨k1, fun m hm => ?_, fun m hm => ?_⟩
  · rw [k2, ep, pollOutput_purge, k3 m hm]
  · rw [k2, ep, pollOutput_purge, e0 m]
    obtain ⟨d, g1, g2⟩ := k4 m hm
    refine ⟨rfl, d, g1, ?_⟩
    rcases g2 with g | g
    · exact .inl (by rw [g])
    · exact .inr (by rw [g])

/-- A short buffer, a shorter one, and one that is long enough. -/
example : (run C12.role Demo.pskEnv (C12.start Demo.pskEnv Demo.cfg 0)
    [.timeout 0, .poll 57, .poll 3, .poll 58]).1.map (fun | .out (.eng (.bufferTooSmall k)) => k | _ => 0) =
      [0, 58, 58, 0] := by decide +kernel

/-- The calls of a client that asks for the peer certificate with a short buffer. -/
def shortPoll : List Call :=
  ((Demo.rounds Demo.certEnv 1).cCalls) ++ [.poll 1]

/-- C21 fails for the peer certificate: with a short buffer the session panics. -/
theorem short_certificate_panics :
    (run C12.role Demo.certEnv (C12.start Demo.certEnv Demo.cfg 0) shortPoll).1.getLast? = some (.out .panic) := by
  decide +kernel

end Verif.Props.Recv12

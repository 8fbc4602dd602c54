import Verif.Lemmas.Marks13
import Verif.Props.Close12
import Verif.Props.Demo13
/-!
# Closing and queued data, DTLS 1.3 (C37, C38, C48)

What the application and `close` put on the transmit queue is read off the log of queued records:
`alerts` are the alert records, `apps` the contents of the application data records, newest first.
-/
namespace Verif.Props.Close13
open Verif Wire Window Timer Aead M E13
open Verif.E12 (Call Ret Output outputs isMark)
open Verif.Props.Close12 (accepted smooth accepted_cons smooth_cons)

/-- Contents of the alerts among records, newest first. -/
def alertsOf (m : List (UInt8 × Bytes)) : List Bytes :=
  m.filterMap fun x => if x.1 = ctAlert then some x.2 else none

/-- Contents of the application data among records, newest first. -/
def appsOf (m : List (UInt8 × Bytes)) : List Bytes :=
  m.filterMap fun x => if x.1 = ctAppData then some x.2 else none

/-- Contents of the alert records put on the transmit queue, newest first. -/
def alerts (l : List Ev) : List Bytes := alertsOf (marks l)

/-- Contents of the application data records put on the transmit queue, newest first. -/
def apps (l : List Ev) : List Bytes := appsOf (marks l)

theorem alertsOf_data (d : List Bytes) (m) : alertsOf (dataMarks d ++ m) = alertsOf m := by
  unfold alertsOf
  rw [List.filterMap_append]
  have : ((dataMarks d).filterMap fun x : UInt8 × Bytes => if x.1 = ctAlert then some x.2 else none) = [] := by
    rw [List.filterMap_eq_nil_iff]
    intro x hx
    unfold dataMarks at hx
    rw [List.mem_reverse, List.mem_map] at hx
    obtain ⟨_, _, rfl⟩ := hx
    rfl
  rw [this]; rfl

theorem appsOf_data (d : List Bytes) (m) : appsOf (dataMarks d ++ m) = d.reverse ++ appsOf m := by
  unfold appsOf dataMarks
  rw [List.filterMap_append]
  congr 1
  rw [← List.map_reverse, List.filterMap_map]
  generalize d.reverse = d
  induction d with
  | nil => rfl
  | cons x d ih =>
    rw [List.filterMap_cons, ih]
    rfl

theorem wp_true {σ α : Type} (m : M σ α) (s : σ) : wp m s (fun _ _ => True) (fun _ _ => True) :=
  wp_of (fun _ _ _ => trivial) (fun _ _ _ => trivial)

section
variable {R : Role} {env : PEnv} {k : R.St → Bool}

/-! ## C37 -/

/-- At most one alert has been queued, a close_notify, and none as long as the session is not closed. -/
def OneAlert (R : Role) (s : Ses R.St) : Prop :=
  ∃ L, Noted L s.eng ∧
    (alertsOf L = [] ∨ (s.st = R.halfClosed ∨ s.st = R.closed) ∧ alertsOf L = [[1, 0]])

theorem oneAlert_stable (ho : RoleOk R env k) : Stable R env (OneAlert R) where
  packet s p := fun ⟨L, h, g⟩ => ⟨L, noted_packet env.toEnv L _ p h, g⟩
  keep _ _ _ h := h
  note s n := fun ⟨L, h, g⟩ => by
    obtain ⟨h1, _, h3⟩ := noteTime_noted (env := env) L n s h
    exact ⟨L, h1, by rw [h3]; exact g⟩
  timeout s n := fun ⟨L, h, g⟩ => ⟨L, noted_timeout env.toEnv L _ n h, g⟩
  step s := fun ⟨L, h, g⟩ => by
    by_cases ha : s.st = R.app
    · have g0 : alertsOf L = [] := by
        rcases g with g | ⟨g | g, _⟩
        · exact g
        · exact absurd (ha.symm.trans g) ho.appHalf
        · exact absurd (ha.symm.trans g) ho.appClosed
      rw [ha, ho.app]
      refine wp_mono (app_noted L R.app s h) ?_ ?_
      · rintro new s' ⟨_, h2, _, h4⟩
        exact ⟨h2.trans ha, _, h4, .inl ((alertsOf_data _ _).trans g0)⟩
      · rintro f s' ⟨h1, ⟨_, _, h4⟩ | ⟨_, pre, _, _, h4⟩⟩
        · exact ⟨L, h4, .inl g0⟩
        · exact ⟨_, h4, .inl ((alertsOf_data _ _).trans g0)⟩
    · obtain ⟨h1, _, h3⟩ := step_noted ho L s h ha
      by_cases hh : s.st = R.halfClosed
      · have hw : wp (R.step env s.st) s (fun new _ => new = R.halfClosed ∨ new = R.closed) (fun _ _ => True) := by
          rw [hh, ho.half]
          unfold halfClosedLocal
          simp only [bind_eq, pure_eq, wp_bind, wp_get]
          have fin : ∀ t : Ses R.St, (if t.eng.closeSeq.isSome then R.closed else R.halfClosed) = R.halfClosed ∨
              (if t.eng.closeSeq.isSome then R.closed else R.halfClosed) = R.closed := by
            intro t; split <;> simp
          split
          · rw [wp_bind, wp_onEng]
            refine wp_mono (wp_true _ _) ?_ (fun _ _ _ => trivial)
            intro m e _
            cases m with
            | none => exact fin _
            | some b =>
              cases b with
              | keyUpdate r =>
                simp only [wp_bind, wp_onEng]
                refine wp_mono (wp_true _ _) ?_ (fun _ _ _ => trivial)
                intro _ _ _
                refine wp_mono (wp_true _ _) ?_ (fun _ _ _ => trivial)
                intro _ _ _
                exact fin _
              | _ => trivial
          · exact fin _
        have hal : ∀ (t : R.St), t = R.halfClosed ∨ t = R.closed →
            (alertsOf L = [] ∨ (t = R.halfClosed ∨ t = R.closed) ∧ alertsOf L = [[1, 0]]) := by
          intro t ht
          rcases g with g | ⟨_, g⟩
          · exact .inl g
          · exact .inr ⟨ht, g⟩
        revert hw h1 h3
        unfold wp
        generalize R.step env s.st s = r
        obtain ⟨r, s'⟩ := r
        intro h1 h3 hw
        cases r with
        | ok new => exact ⟨h3, L, h1, hal _ hw⟩
        | fail f => exact ⟨L, h1, hal _ (.inl (h3.trans hh))⟩
      · by_cases hc : s.st = R.closed
        · rw [hc, ho.closed]
          exact ⟨hc, L, h, by rw [hc] at g; exact g⟩
        · have g0 : alertsOf L = [] := by
            rcases g with g | ⟨g | g, _⟩
            · exact g
            · exact absurd g hh
            · exact absurd g hc
          refine wp_of ?_ ?_
          · intro new s' e
            rw [e] at h1 h3
            exact ⟨h3, L, h1, .inl g0⟩
          · intro f s' e
            rw [e] at h1
            exact ⟨L, h1, .inl g0⟩
  send s d := fun ⟨L, h, g⟩ => by
    apply of_wp (m := sendM R env d) (OneAlert R)
    unfold sendM sendApp
    simp only [bind_eq, wp_bind, wp_get]
    split
    · exact ⟨L, h, g⟩
    · rename_i hcl
      split
      · exact ⟨L, h, g⟩
      · rw [wp_onEng]
        have g0 : alertsOf L = [] := by
          rcases g with g | ⟨g, _⟩
          · exact g
          · exact absurd g.symm hcl
        refine wp_mono (createCipher_mark env.toEnv ctAppData _ d h (by decide)) ?_ ?_
        · rintro _ e ⟨h1, _⟩
          exact ⟨_, h1, .inl g0⟩
        · rintro x e ⟨_, _, h1, _⟩
          exact ⟨L, h1, .inl g0⟩
  close s := fun ⟨L, h, g⟩ => by
    apply of_wp (m := closeM R env) (OneAlert R)
    unfold closeM
    simp only [bind_eq, wp_bind, wp_get, pure_eq]
    split
    · exact ⟨L, h, g⟩
    · rename_i hcl
      have g0 : alertsOf L = [] := by
        rcases g with g | ⟨g, _⟩
        · exact g
        · exact absurd g.symm hcl
      split
      · exact ⟨L, noted_abort L _ h, .inl g0⟩
      · simp only [wp_bind, wp_onEng, wp_onEng', wp_modify]
        refine wp_mono (createCipher_mark env.toEnv ctAlert _ [1, 0] h (by decide)) ?_ ?_
        · rintro _ e ⟨h1, _⟩
          refine ⟨_, noted_cancel _ _ h1, .inr ⟨.inl rfl, ?_⟩⟩
          show [1, 0] :: alertsOf L = _
          rw [g0]
        · rintro x e ⟨_, _, h1, _⟩
          exact ⟨L, h1, .inl g0⟩
  poll s n := fun ⟨L, h, g⟩ => by
    obtain ⟨h1, _, h3⟩ := pollM_noted (R := R) L n s h
    exact ⟨L, h1, by rw [h3]; exact g⟩

theorem Start.noted {cfg : Cfg} {s0 : Ses R.St} (h : Start env cfg R s0) : Noted [] s0.eng := by
  obtain ⟨h1, h2, h3, _⟩ := h.saved0
  refine ⟨?_, ?_, ?_⟩
  · show marks (s0.eng.log.filter Ev.isTx) = []
    rw [h3]; rfl
  · rw [h1]; exact fun _ he => nomatch he
  · rw [h2]; simp

/-- Over a whole execution at most one alert is put on the transmit queue; it is a close_notify, and
the session is closed then. -/
theorem at_most_one_close_notify {cfg : Cfg} {s0 : Ses R.St} (h : Start env cfg R s0) (cs : List Call) :
    let s := (run R env s0 cs).2
    alerts s.eng.log = [] ∨ (s.st = R.halfClosed ∨ s.st = R.closed) ∧ alerts s.eng.log = [[1, 0]] := by
  obtain ⟨_, ho⟩ := h.roleOk
  obtain ⟨L, h1, h2⟩ := (oneAlert_stable ho).run s0 cs ⟨[], Start.noted h, .inl rfl⟩
  dsimp only
  unfold alerts
  rw [h1.marks]
  exact h2

/-! ### After close -/

/-- The records put on the transmit queue, newest first. -/
def puts (l : List Ev) : List Ev := l.filter fun | .queued .. => true | _ => false

/-- Nothing to retransmit and timers off; `P` are the records put on the transmit queue so far, `T` the
datagrams handed out so far and those still on the queue, in order. -/
structure Dead (P : List Ev) (T : List Bytes) (e : Eng) : Prop where
  saved : e.saved = []
  flight : e.timers.flight = .disabled
  connect : e.timers.connect = .disabled
  puts : puts e.log = P
  order : (sentOf e.log).reverse ++ e.tx = T

theorem Dead.same {P T} {e e' : Eng} (h : Dead P T e) (h1 : e'.saved = e.saved) (h2 : e'.timers = e.timers)
    (h3 : e'.tx = e.tx) (h4 : Close13.puts e'.log = Close13.puts e.log) (h5 : sentOf e'.log = sentOf e.log) :
    Dead P T e' :=
  ⟨h1.trans h.saved, h2 ▸ h.flight, h2 ▸ h.connect, h4.trans h.puts, by rw [h5, h3]; exact h.order⟩

theorem replayUpdate_same (e : Eng) (ep n : Nat) : (e.replayUpdate ep n).saved = e.saved ∧
    (e.replayUpdate ep n).timers = e.timers ∧ (e.replayUpdate ep n).tx = e.tx := by
  unfold Eng.replayUpdate
  split <;> exact ⟨rfl, rfl, rfl⟩

theorem dead_frame (env : Env) (P T) : PFrame env fun e e' => Dead P T e → Dead P T e' where
  refl _ := id
  trans _ _ _ h g := fun x => g (h x)
  resend e h := by
    unfold flightResend
    rw [h.saved]
    exact h.same h.saved.symm rfl rfl rfl rfl
  ack e d h := by
    unfold processAck
    split
    · exact h
    · rename_i numbers _
      have h1 : ({ e with saved := e.saved.map (markAcked numbers) } : Eng) = e := by
        have : e.saved.map (markAcked numbers) = e.saved := by rw [h.saved]; rfl
        rw [this]
      rw [h1]
      have h2 : ackHandshakeFlight e = e := by
        unfold ackHandshakeFlight; rw [h.saved]; rfl
      rw [h2]
      unfold ackKeyUpdate
      rw [h.saved]
      simp only [List.isEmpty_nil, Bool.not_true, Bool.and_false, Bool.false_and, Bool.false_eq_true, if_false]
      exact h
  opened e k a c p ep n h := by
    obtain ⟨h1, h2, h3⟩ := replayUpdate_same e ep n
    exact h.same h1 h2 h3 rfl rfl
  close _ _ h := h.same rfl rfl rfl rfl rfl
  queue _ _ _ _ h := h.same rfl rfl rfl rfl rfl

theorem dead_timeout (env : Env) (P T) (n : Nat) (e : Eng) (h : Dead P T e) :
    (handleTimeout env n e).1 = .ok () ∧ Dead P T (handleTimeout env n e).2 := by
  have ht : e.timers.handle e.cfg.handshakeTimeout n (env.jitter e.tick) = (e.timers, .idle) := by
    unfold Timers.handle Timers.arm Timeout.expired
    simp [h.flight, h.connect]
  unfold handleTimeout
  dsimp only
  rw [ht]
  exact ⟨rfl, h.same rfl rfl rfl rfl rfl⟩

theorem dead_poll (P T) (b n : Nat) (e : Eng) (h : Dead P T e) : Dead P T (pollOutput b n e).2 := by
  have hs : ∀ e : Eng, Dead P T e → Dead P T (scheduleAck n e) := by
    intro e h
    unfold scheduleAck
    repeat' split
    all_goals exact h.same rfl rfl rfl rfl rfl
  have hr : ∀ e : Eng, Dead P T e → Dead P T (pollRest b n e).2 := by
    intro e h
    have h1 := hs e h
    unfold pollRest
    dsimp only
    generalize scheduleAck n e = u at h1
    split
    · rename_i p rest he
      split
      · exact h1
      · refine ⟨h1.saved, h1.flight, h1.connect, h1.puts, ?_⟩
        have := h1.order
        rw [he] at this
        simpa [sentOf] using this
    · split
      · exact h1.same rfl rfl rfl rfl rfl
      · exact h1
  have hp : Dead P T (purge e) := h.same rfl rfl rfl rfl rfl
  unfold pollOutput
  dsimp only
  repeat' split
  all_goals first
    | exact hp
    | exact hr _ hp
    | exact hp.same rfl rfl rfl rfl rfl

theorem dead_next (env : Env) (P T) (a i t) (e : Eng) (h : Dead P T e) :
    Dead P T (nextHandshakeWith env a i t e).2 := by
  unfold nextHandshakeWith
  repeat' split
  · exact h
  · exact h
  · unfold defragment
    dsimp only
    repeat' split
    all_goals exact h.same rfl rfl rfl rfl rfl

theorem dead_recvKeys (env : Env) (P T) (e : Eng) (h : Dead P T e) : Dead P T (updateRecvKeys env e).2 := by
  unfold updateRecvKeys
  split
  · exact h
  · refine of_wp (m := M.bind _ _) (Dead P T) ?_
    rw [wp_bind]
    refine wp_deriveNextSecret (fun _ _ _ _ => ?_) h h
    split
    · exact h
    · rw [wp_bind]
      refine wp_deriveEpochKeys (fun _ _ _ _ => ?_) h h
      exact h.same rfl rfl rfl rfl rfl

theorem dead_advance (P T) (e : Eng) (h : Dead P T e) : Dead P T (advancePeerSeq e).2 := by
  unfold advancePeerSeq
  split
  · exact h
  · exact h.same rfl rfl rfl rfl rfl

/-- The session has been closed. -/
def Shut (R : Role) (s : Ses R.St) : Prop := s.st = R.halfClosed ∨ s.st = R.closed

theorem shut_send (s : Ses R.St) (h : Shut R s) (d : Bytes) :
    sendM R env d s = (.fail (.fatal .connectionClosed), s) := by
  unfold sendM
  have : s.st = R.closed ∨ s.st = R.halfClosed := h.symm
  simp [M.bind, M.get, M.andThen, this, M.fatal, M.fail]

theorem shut_close (s : Ses R.St) (h : Shut R s) : closeM R env s = (.ok (), s) := by
  unfold closeM
  have : s.st = R.closed ∨ s.st = R.halfClosed := h.symm
  simp [M.bind, M.get, M.andThen, this, M.pure]

theorem dead_half (P T) (s : Ses R.St) (h : Dead P T s.eng) :
    wp (halfClosedLocal env R.halfClosed R.closed) s
      (fun new s' => (new = R.halfClosed ∨ new = R.closed) ∧ s'.st = s.st ∧ Dead P T s'.eng)
      (fun _ s' => s'.st = s.st ∧ Dead P T s'.eng) := by
  unfold halfClosedLocal
  simp only [bind_eq, pure_eq, wp_bind, wp_get]
  have fin : ∀ t : Ses R.St, t.st = s.st → Dead P T t.eng →
      ((if t.eng.closeSeq.isSome then R.closed else R.halfClosed) = R.halfClosed ∨
      (if t.eng.closeSeq.isSome then R.closed else R.halfClosed) = R.closed) ∧ t.st = s.st ∧ Dead P T t.eng := by
    intro t h1 h2
    refine ⟨?_, h1, h2⟩
    split <;> simp
  split
  · rw [wp_bind, wp_onEng]
    refine wp_mono (to_wp (R := Dead P T) (dead_next env.toEnv P T false false mtKeyUpdate _ h)) ?_
      (fun _ _ g => ⟨(by trivial), g⟩)
    intro m e g
    cases m with
    | none => exact fin { s with eng := e } rfl g
    | some b =>
      cases b with
      | keyUpdate r =>
        simp only [wp_bind, wp_onEng]
        refine wp_mono (to_wp (R := Dead P T) (dead_recvKeys env.toEnv P T _ g)) ?_ (fun _ _ g => ⟨(by trivial), g⟩)
        intro _ e1 g1
        refine wp_mono (to_wp (R := Dead P T) (dead_advance P T _ g1)) ?_ (fun _ _ g => ⟨(by trivial), g⟩)
        intro _ e2 g2
        exact fin { s with eng := e2 } rfl g2
      | _ => exact ⟨rfl, g⟩
  · exact fin s rfl h

theorem dead_stable (ho : RoleOk R env k) (P T) : Stable R env (fun s => Shut R s ∧ Dead P T s.eng) where
  packet s p h := ⟨h.1, (dead_frame env.toEnv P T).parsePacket p s.eng h.2⟩
  keep _ _ _ h := h
  note s n h := by
    unfold noteTime
    split
    · exact h
    · exact ⟨h.1, h.2.same rfl rfl rfl rfl rfl⟩
  timeout s n h := ⟨h.1, (dead_timeout env.toEnv P T n s.eng h.2).2⟩
  step s h := by
    rcases h.1 with hs | hs
    · rw [hs, ho.half]
      refine wp_mono (dead_half P T s h.2) ?_ ?_
      · rintro new s' ⟨h1, h2, h3⟩
        exact ⟨h2.trans hs, h1, h3⟩
      · rintro f s' ⟨h1, h2⟩
        exact ⟨.inl (h1.trans hs), h2⟩
    · rw [hs, ho.closed]
      exact ⟨hs, .inr rfl, h.2⟩
  send s d h := by rw [shut_send s h.1]; exact h
  close s h := by rw [shut_close s h.1]; exact h
  poll s n h := by
    unfold pollM
    split
    · exact h
    · exact ⟨h.1, dead_poll P T _ _ _ h.2⟩

/-- Closing a session that is not closed yet. -/
theorem close_effect (s : Ses R.St) (hn : ¬ Shut R s)
    (hr : s.eng.received.length ≤ 32) (L) (h : Noted L s.eng)
    (hok : (call R env s .close).1 = .res .ok) :
    let s' := (call R env s .close).2
    Shut R s' ∧ Dead (puts s'.eng.log) ((sentOf s'.eng.log).reverse ++ s'.eng.tx) s'.eng
    ∧ s'.eng.received.length ≤ 32
    ∧ (s.st = R.app → s'.st = R.halfClosed ∧ Noted ((ctAlert, [1, 0]) :: L) s'.eng)
    ∧ (s.st ≠ R.app → s'.st = R.closed ∧ s'.eng.tx = [] ∧ s'.eng.log = s.eng.log) := by
  dsimp only
  have hn' : ¬ (s.st = R.closed ∨ s.st = R.halfClosed) := fun g => hn g.symm
  by_cases ha : s.st = R.app
  · have hw : wp (closeM R env) s (fun _ s' => Shut R s' ∧
        Dead (puts s'.eng.log) ((sentOf s'.eng.log).reverse ++ s'.eng.tx) s'.eng
        ∧ s'.eng.received.length ≤ 32
        ∧ s'.st = R.halfClosed ∧ Noted ((ctAlert, [1, 0]) :: L) s'.eng) (fun f _ => f ≠ .transient) := by
      unfold closeM
      simp only [bind_eq, wp_bind, wp_get, pure_eq]
      rw [if_neg hn', if_neg (fun g => g ha)]
      simp only [wp_bind, wp_onEng, wp_onEng', wp_modify]
      refine wp_mono (createCipher_mark env.toEnv ctAlert _ [1, 0] h (by decide)) ?_ ?_
      · rintro _ e ⟨h1, _⟩
        exact ⟨.inl rfl, ⟨rfl, rfl, rfl, rfl, rfl⟩, h1.r, by trivial, noted_cancel _ _ h1⟩
      · rintro x e ⟨h1, _⟩
        exact h1
    unfold call at hok ⊢
    dsimp only at hok ⊢
    unfold wp at hw
    revert hok hw
    generalize closeM R env s = r
    obtain ⟨r, s'⟩ := r
    intro hok hw
    cases r with
    | ok =>
      obtain ⟨h1, h2, h3, h4⟩ := hw
      exact ⟨h1, h2, h3, fun _ => h4, fun g => absurd ha g⟩
    | fail f =>
      dsimp only at hok hw
      cases f <;> simp [toApi] at hok hw
  · have hcl : call R env s .close = (.res .ok, { s with st := R.closed, eng := abort s.eng }) := by
      unfold call closeM
      simp [M.bind, M.get, M.andThen, ha, hn', onEng', M.modify, toApi]
    rw [hcl]
    exact ⟨.inr rfl, ⟨rfl, rfl, rfl, rfl, rfl⟩, hr, fun g => absurd g ha, fun _ => ⟨rfl, rfl, rfl⟩⟩

/-- What is known of every reachable state. -/
theorem reach_noted {cfg : Cfg} {s0 : Ses R.St} (h : Start env cfg R s0) (cs : List Call) :
    Noted (marks (run R env s0 cs).2.eng.log) (run R env s0 cs).2.eng := by
  obtain ⟨_, ho⟩ := h.roleOk
  obtain ⟨L, h1, _⟩ := (oneAlert_stable ho).run s0 cs ⟨[], Start.noted h, .inl rfl⟩
  rw [h1.marks]
  exact h1

/-- `close` succeeding closes the session. Closing a connected one puts exactly one alert on the transmit
queue, a close_notify, and no application data; closing an unconnected one puts nothing there and empties
it. -/
theorem close_ok {cfg : Cfg} {s0 : Ses R.St} (h : Start env cfg R s0) (cs : List Call)
    (hn : ¬ Shut R (run R env s0 cs).2) (hok : (call R env (run R env s0 cs).2 .close).1 = .res .ok) :
    let s := (run R env s0 cs).2
    let s' := (call R env s .close).2
    (s.st = R.app → s'.st = R.halfClosed ∧ marks s'.eng.log = (ctAlert, [1, 0]) :: marks s.eng.log)
    ∧ (s.st ≠ R.app → s'.st = R.closed ∧ s'.eng.tx = [] ∧ s'.eng.log = s.eng.log) := by
  obtain ⟨_, ho⟩ := h.roleOk
  have h1 := reach_noted h cs
  obtain ⟨_, _, _, g1, g2⟩ := close_effect _ hn h1.r _ h1 hok
  exact ⟨fun g => ⟨(g1 g).1, (g1 g).2.marks⟩, g2⟩

/-- After a successful `close`, whatever happens: the session stays closed; nothing at all is put on the
transmit queue any more, neither application data nor an alert nor a retransmission nor an
acknowledgement; the datagrams handed out later and those still queued are those that were queued when
`close` returned; sending fails with `ConnectionClosed` and closing again succeeds, both without effect. -/
theorem after_close {cfg : Cfg} {s0 : Ses R.St} (h : Start env cfg R s0) (cs : List Call)
    (hn : ¬ Shut R (run R env s0 cs).2) (hok : (call R env (run R env s0 cs).2 .close).1 = .res .ok)
    (more : List Call) :
    let s1 := (call R env (run R env s0 cs).2 .close).2
    let r := run R env s1 more
    (r.2.st = R.halfClosed ∨ r.2.st = R.closed) ∧ puts r.2.eng.log = puts s1.eng.log
    ∧ packets (outputs r.1) ++ r.2.eng.tx = s1.eng.tx
    ∧ (∀ d, call R env r.2 (.send d) = (.res (.err .connectionClosed), r.2))
    ∧ call R env r.2 .close = (.res .ok, r.2) := by
  obtain ⟨_, ho⟩ := h.roleOk
  have h1 := reach_noted h cs
  obtain ⟨g1, g2, g3, _⟩ := close_effect _ hn h1.r _ h1 hok
  dsimp only
  generalize (call R env (run R env s0 cs).2 .close).2 = s1 at g1 g2 g3
  obtain ⟨k1, k2⟩ := (dead_stable ho _ _).run s1 more ⟨g1, g2⟩
  refine ⟨k1, k2.puts, ?_, fun d => ?_, ?_⟩
  · have := k2.order
    rw [(run_sent ho more s1 g3).1, List.reverse_append, List.reverse_reverse, List.append_assoc] at this
    exact List.append_cancel_left this
  · unfold call; dsimp only; rw [shut_send _ k1]; rfl
  · unfold call; dsimp only; rw [shut_close _ k1]; rfl

/-! ## C38 -/

/-- `close` during the handshake succeeds. Whatever happens then, no datagram is put out, and no timer
fires: `handle_timeout` returns Ok at any time. (The timeouts reported may lie in the past:
`Timer13.closed_spins`.) -/
theorem close_silent {cfg : Cfg} {s0 : Ses R.St} (h : Start env cfg R s0) (cs more : List Call)
    (ha : (run R env s0 cs).2.st ≠ R.app) (hn : ¬ Shut R (run R env s0 cs).2) :
    let s1 := (call R env (run R env s0 cs).2 .close).2
    let r := run R env s1 more
    (call R env (run R env s0 cs).2 .close).1 = .res .ok
    ∧ packets (outputs r.1) = [] ∧ r.2.eng.tx = []
    ∧ ∀ n, (call R env r.2 (.timeout n)).1 = .res .ok := by
  obtain ⟨_, ho⟩ := h.roleOk
  have hn' : ¬ ((run R env s0 cs).2.st = R.closed ∨ (run R env s0 cs).2.st = R.halfClosed) := fun g => hn g.symm
  have hok : (call R env (run R env s0 cs).2 .close).1 = .res .ok := by
    unfold call closeM
    simp [M.bind, M.get, M.andThen, ha, hn', onEng', M.modify, toApi]
  have h1 := reach_noted h cs
  obtain ⟨g1, g2, _, _, g4⟩ := close_effect _ hn h1.r _ h1 hok
  obtain ⟨g4, g5, _⟩ := g4 ha
  have h3 := (after_close h cs hn hok more).2.2.1
  dsimp only at h3 ⊢
  rw [g5] at h3
  obtain ⟨h4, h5⟩ := List.append_eq_nil_iff.mp h3
  refine ⟨hok, h4, h5, fun n => ?_⟩
  have hcl : Stable R env (fun s => s.st = R.closed ∧ Dead (puts (call R env (run R env s0 cs).2 .close).2.eng.log)
      ((sentOf (call R env (run R env s0 cs).2 .close).2.eng.log).reverse ++
        (call R env (run R env s0 cs).2 .close).2.eng.tx) s.eng) := by
    have hd := dead_stable ho (puts (call R env (run R env s0 cs).2 .close).2.eng.log)
      ((sentOf (call R env (run R env s0 cs).2 .close).2.eng.log).reverse ++
        (call R env (run R env s0 cs).2 .close).2.eng.tx)
    exact {
      packet := fun s p h => ⟨h.1, (hd.packet s p ⟨.inr h.1, h.2⟩).2⟩
      keep := fun _ _ _ h => h
      note := fun s n h => by
        have := hd.note s n ⟨.inr h.1, h.2⟩
        refine ⟨?_, this.2⟩
        unfold noteTime
        split <;> exact h.1
      timeout := fun s n h => ⟨h.1, (hd.timeout s n ⟨.inr h.1, h.2⟩).2⟩
      step := fun s h => by rw [h.1, ho.closed]; exact ⟨h.1, rfl, h.2⟩
      send := fun s d h => by rw [shut_send s (.inr h.1)]; exact h
      close := fun s h => by rw [shut_close s (.inr h.1)]; exact h
      poll := fun s n h => by
        unfold pollM
        split
        · exact h
        · exact ⟨h.1, dead_poll _ _ _ _ _ h.2⟩ }
  have h6 := hcl.run _ more ⟨g4, g2⟩
  generalize (run R env (call R env (run R env s0 cs).2 .close).2 more).2 = s2 at h6
  have h7 := hcl.note s2 n h6
  have h8 := dead_timeout env.toEnv _ _ n _ h7.2
  show Ret.res (toApi (handleTimeoutM R env n s2).1) = _
  unfold handleTimeoutM
  simp only [bind_eq, M.bind, M.modify, M.andThen, onEng, M.zoom]
  revert h8
  generalize handleTimeout env.toEnv n (noteTime R env n s2).eng = r
  obtain ⟨r, e⟩ := r
  rintro ⟨h8, _⟩
  dsimp only at h8
  subst h8
  dsimp only
  show Ret.res (toApi (progress R env (39 + 1) _).1) = _
  unfold progress
  simp [M.bind, M.get, M.andThen, h7.1, ho.closed, M.pure, toApi]

/-! ## C48 -/

/-- A connected session has nothing queued. -/
def Drained (R : Role) (s : Ses R.St) : Prop := s.st = R.app → s.queued = []

/-- What was transmitted, `L`, and what is queued is exactly what was accepted. -/
def Exact (acc : List Bytes) (L : List (UInt8 × Bytes)) (q : List Bytes) : Prop := (appsOf L).reverse ++ q = acc

/-- Nothing was transmitted or is queued more often than it was accepted. -/
def Fair (acc : List Bytes) (L : List (UInt8 × Bytes)) (q : List Bytes) : Prop :=
  ∀ d, (appsOf L).count d + q.count d ≤ acc.count d

/-- The state of affairs: `sm` if nothing went wrong so far. -/
def Good (R : Role) (sm : Prop) (acc : List Bytes) (s : Ses R.St) : Prop :=
  ∃ L, Noted L s.eng ∧ Fair acc L s.queued ∧ (sm → Exact acc L s.queued ∧ Drained R s)

theorem fair_drain {acc : List Bytes} {L} {q pre : List Bytes} (h : Fair acc L q) (hp : pre <+: q) :
    Fair acc (dataMarks pre ++ L) [] := by
  intro d
  have h1 := h d
  have h2 : pre.count d ≤ q.count d := hp.sublist.count_le d
  rw [appsOf_data, List.count_append, List.count_reverse]
  simp
  omega

theorem exact_drain {acc : List Bytes} {L} {q : List Bytes} (h : Exact acc L q) :
    Exact acc (dataMarks q ++ L) [] := by
  unfold Exact at h ⊢
  rw [appsOf_data, List.reverse_append, List.reverse_reverse, List.append_nil]
  exact h

theorem progress_good (ho : RoleOk R env k) (acc : List Bytes) (sm : Prop) (fuel : Nat) (s : Ses R.St) (L)
    (hN : Noted L s.eng) (hF : Fair acc L s.queued) (hE : sm → Exact acc L s.queued) :
    wp (progress R env fuel) s (fun _ s' => Good R sm acc s')
      (fun f s' => Good R (sm ∧ f = .transient) acc s') := by
  induction fuel generalizing s L with
  | zero => exact ⟨L, hN, hF, fun g => nomatch g.2⟩
  | succ n ih =>
    unfold progress
    simp only [bind_eq, pure_eq, wp_bind, wp_get]
    by_cases ha : s.st = R.app
    · rw [ha, ho.app]
      refine wp_mono (app_noted L R.app s hN) ?_ ?_
      · rintro new s' ⟨rfl, h2, h3, h4⟩
        rw [if_pos rfl]
        refine ⟨_, h4, ?_, fun g => ⟨?_, fun _ => h3⟩⟩
        · rw [h3]; exact fair_drain hF (List.prefix_refl _)
        · rw [h3]; exact exact_drain (hE g)
      · rintro f s' ⟨h1, ⟨h2, h3, h4⟩ | ⟨h3, pre, hp, h2, h4⟩⟩
        · exact ⟨L, h4, by rw [h3]; exact hF, fun g => absurd g.2 h2⟩
        · refine ⟨_, h4, ?_, fun g => ⟨?_, fun _ => h3⟩⟩
          · rw [h3]; exact fair_drain hF hp
          · rw [h3, h2 g.2]; exact exact_drain (hE g.1)
    · obtain ⟨h1, h2, h3⟩ := step_noted ho L s hN ha
      refine wp_of ?_ ?_
      · intro new s' e
        rw [e] at h1 h2 h3
        split
        · rename_i he
          rw [wp_pure]
          exact ⟨L, h1, by rw [h2]; exact hF, fun g => ⟨by rw [h2]; exact hE g, fun g => absurd (h3.symm.trans g) ha⟩⟩
        · simp only [wp_bind, wp_modify]
          exact ih _ L h1 (by rw [h2]; exact hF) (by rw [h2]; exact hE)
      · intro f s' e
        rw [e] at h1 h2 h3
        exact ⟨L, h1, by rw [h2]; exact hF,
          fun g => ⟨by rw [h2]; exact hE g.1, fun g => absurd (h3.symm.trans g) ha⟩⟩

/-- The result of a call that handed in a datagram or the time. -/
theorem result_good {acc : List Bytes} {sm : Prop} {m : P R.St Unit} {s : Ses R.St}
    (h : wp m s (fun _ s' => Good R sm acc s') (fun f s' => Good R (sm ∧ f = .transient) acc s')) :
    Good R (sm ∧ toApi (m s).1 = .ok) acc (m s).2 := by
  unfold wp at h
  generalize m s = r at h ⊢
  obtain ⟨r, s'⟩ := r
  cases r with
  | ok a =>
    obtain ⟨L, h1, h2, h3⟩ := h
    exact ⟨L, h1, h2, fun g => h3 g.1⟩
  | fail f =>
    obtain ⟨L, h1, h2, h3⟩ := h
    refine ⟨L, h1, h2, fun g => h3 ⟨g.1, ?_⟩⟩
    have := g.2
    cases f <;> simp [toApi] at this ⊢

theorem call_good (ho : RoleOk R env k) (sm : Prop) (acc : List Bytes) (s : Ses R.St) (c : Call)
    (h : Good R sm acc s) :
    let r := call R env s c
    Good R (sm ∧ smooth [c] [r.1] = true) (acc ++ accepted [c] [r.1]) r.2 := by
  obtain ⟨L, hN, hF, hE⟩ := h
  cases c with
  | packet p =>
    have key : ∀ s : Ses R.St, Noted L s.eng → Fair acc L s.queued → (sm → Exact acc L s.queued ∧ Drained R s) →
        wp (M.bind (onEng (parsePacket env.toEnv p)) fun _ =>
        M.bind (E13.progress R env progressFuel) fun _ => M.modify fun s =>
          if s.autoMode && !R.first s.st then { s with retained := [], autoMode := false } else s) s
        (fun _ s' => Good R sm acc s') (fun f s' => Good R (sm ∧ f = .transient) acc s') := by
      intro s hN hF hE
      rw [wp_bind, wp_onEng]
      refine wp_mono (to_wp (R := fun e => Noted L e) (noted_packet env.toEnv L _ p hN)) ?_ ?_
      · intro _ e he
        rw [wp_bind]
        refine wp_mono (progress_good ho acc sm progressFuel { s with eng := e } L he hF fun g => (hE g).1) ?_
          (fun _ _ g => g)
        intro _ s' ⟨L', g1, g2, g3⟩
        rw [wp_modify]
        split
        · exact ⟨L', g1, g2, g3⟩
        · exact ⟨L', g1, g2, g3⟩
      · intro f e he
        exact ⟨L, he, hF, fun g => hE g.1⟩
    have hw : wp (handlePacketM R env p) s (fun _ s' => Good R sm acc s')
        (fun f s' => Good R (sm ∧ f = .transient) acc s') := by
      unfold handlePacketM
      simp only [bind_eq, wp_bind, wp_get]
      split
      · split
        · exact ⟨L, hN, hF, fun g => nomatch g.2⟩
        · rw [wp_bind, wp_modify]
          exact key { s with retained := s.retained ++ [p] } hN hF hE
      · exact key s hN hF hE
    have := result_good hw
    simpa [call, accepted, smooth] using this
  | timeout n =>
    obtain ⟨h1, h2, h3⟩ := noteTime_noted (env := env) L n s hN
    have hw : wp (handleTimeoutM R env n) s (fun _ s' => Good R sm acc s')
        (fun f s' => Good R (sm ∧ f = .transient) acc s') := by
      unfold handleTimeoutM
      simp only [bind_eq, wp_bind, wp_onEng, wp_modify]
      have hF' : Fair acc L (noteTime R env n s).queued := by rw [h2]; exact hF
      have hE' : sm → Exact acc L (noteTime R env n s).queued ∧ Drained R (noteTime R env n s) := by
        unfold Drained; rw [h2, h3]; exact hE
      generalize noteTime R env n s = t at h1 hF' hE'
      refine wp_mono (to_wp (R := fun e => Noted L e) (noted_timeout env.toEnv L _ n h1)) ?_ ?_
      · intro _ e he
        exact progress_good ho acc sm progressFuel { t with eng := e } L he hF' fun g => (hE' g).1
      · intro f e he
        exact ⟨L, he, hF', fun g => hE' g.1⟩
    have := result_good hw
    simpa [call, accepted, smooth] using this
  | send d =>
    have hsm : ∀ r, smooth [.send d] [r] = true := fun _ => rfl
    dsimp only
    rw [hsm]
    unfold call sendM sendApp
    simp only [bind_eq, M.bind, M.get, M.andThen]
    by_cases hcl : s.st = R.closed ∨ s.st = R.halfClosed
    · rw [if_pos hcl]
      simp only [M.fatal, M.fail, toApi, accepted, List.append_nil]
      exact ⟨L, hN, hF, fun g => hE g.1⟩
    · rw [if_neg hcl]
      by_cases ha : s.st = R.app
      · rw [if_neg (fun g => g ha)]
        have hw := createCipher_mark env.toEnv ctAppData s.eng.appEpoch d hN (by decide)
        simp only [onEng, M.zoom]
        revert hw
        unfold wp
        generalize createCipher env.toEnv ctAppData s.eng.appEpoch false d s.eng = r
        obtain ⟨r, e⟩ := r
        cases r with
        | ok a =>
          rintro ⟨hm, _⟩
          simp only [toApi, accepted]
          refine ⟨_, hm, ?_, fun g => ⟨?_, (hE g.1).2⟩⟩
          · intro x
            have := hF x
            show List.count x (d :: appsOf L) + _ ≤ _
            rw [List.count_cons, List.count_append, List.count_singleton]
            show _ + _ + s.queued.count x ≤ _
            omega
          · obtain ⟨g1, g2⟩ := hE g.1
            have hq := g2 ha
            unfold Exact at g1 ⊢
            rw [hq, List.append_nil] at g1
            show (d :: appsOf L).reverse ++ s.queued = _
            rw [hq, List.append_nil, List.reverse_cons, g1]
        | fail f =>
          rintro ⟨h1, _, hm, _⟩
          have hacc : acc ++ accepted [.send d] [.res (toApi (.fail f : Res Unit))] = acc := by
            cases f with
            | transient => exact absurd rfl h1
            | _ => simp [toApi, accepted]
          dsimp only
          rw [hacc]
          exact ⟨L, hm, hF, fun g => hE g.1⟩
      · rw [if_pos ha]
        simp only [M.modify, toApi, accepted]
        refine ⟨L, hN, ?_, fun g => ⟨?_, fun g' => absurd g' ha⟩⟩
        · intro x
          have := hF x
          show (appsOf L).count x + (s.queued ++ [d]).count x ≤ _
          rw [List.count_append, List.count_append]
          omega
        · have := (hE g.1).1
          unfold Exact at this ⊢
          show _ ++ (s.queued ++ [d]) = _
          rw [← List.append_assoc, this]
  | close =>
    have key : Good R sm acc (closeM R env s).2 := by
      apply of_wp (m := closeM R env) (Good R sm acc)
      unfold closeM
      simp only [bind_eq, wp_bind, wp_get, pure_eq]
      split
      · exact ⟨L, hN, hF, hE⟩
      · split
        · exact ⟨L, noted_abort L _ hN, hF, fun g => ⟨(hE g).1, fun g => absurd g.symm ho.appClosed⟩⟩
        · simp only [wp_bind, wp_onEng, wp_onEng', wp_modify]
          refine wp_mono (createCipher_mark env.toEnv ctAlert _ [1, 0] hN (by decide)) ?_ ?_
          · rintro _ e ⟨h1, _⟩
            exact ⟨_, noted_cancel _ _ h1, hF, fun g => ⟨(hE g).1, fun g => absurd g.symm ho.appHalf⟩⟩
          · rintro x e ⟨_, _, h1, _⟩
            exact ⟨L, h1, hF, hE⟩
    have hacc : acc ++ accepted [.close] [(call R env s .close).1] = acc := by simp [accepted]
    dsimp only
    rw [hacc]
    obtain ⟨L', g1, g2, g3⟩ := key
    exact ⟨L', g1, g2, fun g => g3 g.1⟩
  | poll n =>
    obtain ⟨h1, h2, h3⟩ := pollM_noted (R := R) L n s hN
    have hacc : acc ++ accepted [.poll n] [(call R env s (.poll n)).1] = acc := by simp [accepted]
    dsimp only
    rw [hacc]
    show Good R _ acc (pollM R n s).2
    refine ⟨L, h1, by rw [h2]; exact hF, fun g => ?_⟩
    unfold Drained
    rw [h2, h3]
    exact hE g.1

theorem run_good (ho : RoleOk R env k) (cs : List Call) (sm : Prop) (acc : List Bytes) (s : Ses R.St)
    (h : Good R sm acc s) :
    let r := run R env s cs
    Good R (sm ∧ smooth cs r.1 = true) (acc ++ accepted cs r.1) r.2 := by
  induction cs generalizing sm acc s with
  | nil =>
    obtain ⟨L, h1, h2, h3⟩ := h
    have : acc ++ accepted [] (run R env s []).1 = acc := by simp [accepted]
    dsimp only
    rw [this]
    exact ⟨L, h1, h2, fun g => h3 g.1⟩
  | cons c cs ih =>
    have h1 := call_good ho sm acc s c h
    have hc : run R env s (c :: cs) =
        if (call R env s c).1 = .res .panic ∨ (call R env s c).1 = .res .diverge ∨ (call R env s c).1 = .out .panic
        then ([(call R env s c).1], (call R env s c).2)
        else ((call R env s c).1 :: (run R env (call R env s c).2 cs).1, (run R env (call R env s c).2 cs).2) := rfl
    dsimp only
    rw [hc]
    split
    · dsimp only
      have he : accepted (c :: cs) [(call R env s c).1] = accepted [c] [(call R env s c).1] := by
        rw [accepted_cons]
        have : accepted cs [] = [] := by cases cs with | nil => rfl | cons a l => cases a <;> rfl
        rw [this, List.append_nil]
      have he' : smooth (c :: cs) [(call R env s c).1] = smooth [c] [(call R env s c).1] := by
        rw [smooth_cons]
        have : smooth cs [] = true := by cases cs with | nil => rfl | cons a l => cases a <;> rfl
        rw [this, Bool.and_true]
      rw [he, he']
      exact h1
    · have := ih _ _ _ h1
      dsimp only at this ⊢
      rw [accepted_cons, smooth_cons, ← List.append_assoc]
      obtain ⟨L, g1, g2, g3⟩ := this
      refine ⟨L, g1, g2, fun g => g3 ?_⟩
      have := g.2
      rw [Bool.and_eq_true] at this
      exact ⟨⟨g.1, this.1⟩, this.2⟩

theorem Good.start {cfg : Cfg} {s0 : Ses R.St} (h : Start env cfg R s0) : Good R True [] s0 := by
  obtain ⟨_, _, _, h4⟩ := h.saved0
  refine ⟨[], Start.noted h, ?_, fun _ => ⟨?_, fun _ => h4⟩⟩
  · intro d; rw [h4]; exact Nat.le_refl _
  · rw [h4]; rfl

/-- In every execution each payload is put on the transmit queue at most as often as a `send` with it
returned Ok: nothing is transmitted twice or without having been sent. -/
theorem never_twice {cfg : Cfg} {s0 : Ses R.St} (h : Start env cfg R s0) (cs : List Call) (d : Bytes) :
    let r := run R env s0 cs
    (apps r.2.eng.log).count d + r.2.queued.count d ≤ (accepted cs r.1).count d := by
  obtain ⟨_, ho⟩ := h.roleOk
  obtain ⟨L, h1, h2, _⟩ := run_good ho cs True [] s0 (.start h)
  have := h2 d
  dsimp only
  unfold apps
  rw [h1.marks]
  simpa using this

/-- Exactly once and in order: if no datagram and no timeout was answered with an error, then everything
accepted is on the transmit queue or still queued, in order; in a connected session nothing is still
queued. Partial: after an error queued data can be lost (`queued_data_lost`) or overtaken by later data
(`queued_data_overtaken`). -/
theorem sent_exactly_once_partial {cfg : Cfg} {s0 : Ses R.St} (h : Start env cfg R s0) (cs : List Call)
    (hs : smooth cs (run R env s0 cs).1 = true) :
    let r := run R env s0 cs
    (apps r.2.eng.log).reverse ++ r.2.queued = accepted cs r.1
    ∧ (r.2.st = R.app → r.2.queued = [] ∧ (apps r.2.eng.log).reverse = accepted cs r.1) := by
  obtain ⟨_, ho⟩ := h.roleOk
  obtain ⟨L, h1, _, h3⟩ := run_good ho cs True [] s0 (.start h)
  obtain ⟨h4, h5⟩ := h3 ⟨trivial, hs⟩
  dsimp only
  unfold apps
  rw [h1.marks]
  unfold Exact at h4
  rw [List.nil_append] at h4
  refine ⟨h4, fun ha => ⟨h5 ha, ?_⟩⟩
  rw [h5 ha, List.append_nil] at h4
  exact h4

end

/-! ## Concrete cases -/

open E13.Demo

/-- A client that is handed `n` messages before its handshake completes. -/
def early (n : Nat) : List Call :=
  .timeout 0 :: (List.range n).map (fun i => .send (List.replicate 100 (UInt8.ofNat i)))
    ++ (clientCalls plainEnv).drop 1

def earlyRun (n : Nat) : List Ret × Ses CSt := run C13.role plainEnv (C13.start plainEnv cfg 0) (early n)

/-- Three messages, all sent on connecting. -/
example : smooth (early 3) (earlyRun 3).1 = true ∧ (earlyRun 3).2.st = .awaitApplicationData
    ∧ (accepted (early 3) (earlyRun 3).1).length = 3 ∧ (apps (earlyRun 3).2.eng.log).length = 3 := by
  decide +kernel

/-- **C48 fails.** The transmit queue holds ten datagrams. Fifteen messages are accepted while the
handshake runs; on connecting the flush fails with `TransmitQueueFull`, and what did not fit is gone: it
is neither on the transmit queue nor queued, although every `send` returned Ok. -/
theorem queued_data_lost :
    (accepted (early 15) (earlyRun 15).1).length = 15 ∧ (earlyRun 15).2.st = .awaitApplicationData
    ∧ .res (.err .transmitQueueFull) ∈ (earlyRun 15).1
    ∧ (apps (earlyRun 15).2.eng.log).length < 15 ∧ (earlyRun 15).2.queued = [] := by decide +kernel

/-- A server with a short transmit queue that updates its keys after every record. -/
def tight : Cfg := { cfg with mtu := 185, maxTx := 1, aeadLimit := 1 }

/-- The calls of that server. It sends its flight; the user sends a message, the flight is repeated and
stays on the transmit queue; the client's Finished arrives; the queue is emptied, the user sends another
message, a datagram comes in. -/
def overtakenCalls : List Call :=
  let cl := drain C13.role plainEnv 30 (call C13.role plainEnv (C13.start plainEnv cfg 0) (.timeout 0)).2
  let first : List Call := .timeout 0 :: cl.2.1.map .packet ++ [.poll 2000]
  let flight := E12.Demo.packets (run S13.role plainEnv (S13.start plainEnv tight 0 false) first).1
  let fin := E12.Demo.packets (run C13.role plainEnv cl.2.2
    (flight.map .packet ++ List.replicate 4 (.poll 2000))).1
  first ++ [.send [1, 1], .timeout 1000, .timeout 9000000000] ++ fin.map .packet
    ++ [.poll 2000, .poll 2000, .send [2, 2], .packet []]

/-- **C48 fails in DTLS 1.3.** On connecting, the automatic KeyUpdate comes before the queued data. If it
fails, the session is connected with the data still queued, and data sent later overtakes it. -/
theorem queued_data_overtaken :
    let r : List Ret × Ses SSt := run S13.role plainEnv (S13.start plainEnv tight 0 false) overtakenCalls
    accepted overtakenCalls r.1 = [[1, 1], [2, 2]] ∧ (apps r.2.eng.log).reverse = [[2, 2], [1, 1]] := by
  decide +kernel

/-- A connected client sends, closes, tries to send again and closes again: one datagram goes out, with
the message and the close_notify. -/
def closing : List Call := [.send [1], .close, .send [2], .close, .poll 2000, .poll 2000]

example : (clientRun plainEnv []).2.st = .awaitApplicationData
    ∧ (clientRun plainEnv closing).2.st = .halfClosedLocal
    ∧ marks (clientRun plainEnv closing).2.eng.log = [(ctAlert, [1, 0]), (ctAppData, [1])]
    ∧ (packets (outputs ((clientRun plainEnv closing).1.drop (clientCalls plainEnv).length))).length = 1 := by
  decide +kernel

/-- A client closed during its handshake, with a ClientHello still on the queue. -/
example :
    let s : Ses CSt := (run C13.role plainEnv (C13.start plainEnv cfg 0) [.timeout 0]).2
    s.st ≠ .awaitApplicationData ∧ s.st ≠ .closed ∧ s.eng.tx.length = 1
    ∧ (call C13.role plainEnv s .close).2.eng.tx = [] := by
  decide +kernel

end Verif.Props.Close13

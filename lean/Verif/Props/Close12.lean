import Verif.Lemmas.Marks12
import Verif.Props.Demo12
/-!
# Closing and queued data, DTLS 1.2 (C37, C38, C48)

What the application and `close` put on the transmit queue is read off the log of queued records:
`alerts` are the alert records, `apps` the contents of the application data records, newest first.
-/
namespace Verif.Props.Close12
open Verif Wire Window Timer Aead M E12

/-- Contents of the alert records put on the transmit queue, newest first. -/
def alerts (l : List Ev) : List Bytes :=
  (marks l).filterMap fun x => if x.1 = ctAlert then some x.2 else none

/-- Contents of the application data records put on the transmit queue, newest first. -/
def apps (l : List Ev) : List Bytes :=
  (marks l).filterMap fun x => if x.1 = ctAppData then some x.2 else none

theorem Start.roleOk {env : PEnv} {cfg : Cfg} {R : Role} {s0 : Ses R.St} (h : Start env cfg R s0) :
    RoleOk R env := by
  cases h
  · exact C12.roleOk env
  · exact C12.roleOk env
  · exact S12.roleOk env

theorem Start.clean {env : PEnv} {cfg : Cfg} {R : Role} {s0 : Ses R.St} (h : Start env cfg R s0) :
    Clean s0.eng ∧ s0.eng.log = [] ∧ s0.queued = [] ∧ s0.st ≠ R.closed ∧ s0.st ≠ R.app := by
  have : Clean s0.eng := fun x hx => by rw [h.saved0] at hx; cases hx
  refine ⟨this, h.log0, ?_⟩
  cases h <;> exact ⟨rfl, fun h => (by cases h), fun h => (by cases h)⟩

section
variable {R : Role} {env : PEnv}

theorem createRecord_wp (env : Env) (c : UInt8) (f : Bytes) (e : Eng) (hc : isMark c = true) :
    wp (createRecord env c 1 false false f) e
      (fun _ e' => e'.saved = e.saved ∧ e'.closeRecv = e.closeRecv ∧ marks e'.log = (c, f) :: marks e.log)
      (fun x e' => x ≠ .transient ∧ x ≠ .diverge ∧ e'.saved = e.saved ∧ e'.closeRecv = e.closeRecv
        ∧ marks e'.log = marks e.log) := by
  obtain ⟨h1, h2, h3⟩ := createRecord_marks env c 1 false false f e
  have hs : (createRecord env c 1 false false f e).2.saved = e.saved := by
    rcases h1 with h | ⟨_, h⟩
    · exact h
    · cases h
  rw [hc, if_pos rfl] at h3
  refine wp_of ?_ ?_
  · intro a s' h
    rw [h] at hs h2 h3
    rcases h3 with ⟨_, hm⟩ | ⟨⟨_, hx, _⟩, _⟩
    · exact ⟨hs, h2, hm⟩
    · cases hx
  · intro x s' h
    rw [h] at hs h2 h3
    rcases h3 with ⟨hx, _⟩ | ⟨⟨_, hx, hx'⟩, hm⟩
    · cases hx
    · cases hx; exact ⟨hx'.1, hx'.2, hs, h2, hm⟩

/-! ## The connected state -/

theorem drainLoop_marks {St : Type} (l : List Bytes) (s : Ses St) :
    wp (drainLoop env l) s
      (fun _ s' => s'.st = s.st ∧ s'.queued = s.queued ∧ s'.eng.saved = s.eng.saved
        ∧ s'.eng.closeRecv = s.eng.closeRecv
        ∧ marks s'.eng.log = (l.map fun d => (ctAppData, d)).reverse ++ marks s.eng.log)
      (fun f s' => f ≠ .transient ∧ f ≠ .diverge ∧ s'.st = s.st ∧ s'.queued = s.queued ∧ s'.eng.saved = s.eng.saved
        ∧ s'.eng.closeRecv = s.eng.closeRecv
        ∧ ∃ pre, pre <+: l ∧ marks s'.eng.log = (pre.map fun d => (ctAppData, d)).reverse ++ marks s.eng.log) := by
  induction l generalizing s with
  | nil => exact ⟨rfl, rfl, rfl, rfl, rfl⟩
  | cons d rest ih =>
    unfold drainLoop
    simp only [bind_eq, wp_bind, wp_onEng]
    refine wp_mono (createRecord_wp env.toEnv ctAppData d s.eng (by decide)) ?_ ?_
    · rintro _ e ⟨hs, h2, hm⟩
      refine wp_mono (ih _) ?_ ?_
      · rintro _ s' ⟨g1, g2, g3, g4, g5⟩
        refine ⟨g1, g2, g3.trans hs, g4.trans h2, ?_⟩
        rw [g5]
        simp [hm]
      · rintro f s' ⟨g0, g0', g1, g2, g3, g4, pre, hp, g5⟩
        refine ⟨g0, g0', g1, g2, g3.trans hs, g4.trans h2, d :: pre, ?_, ?_⟩
        · exact List.cons_prefix_cons.2 ⟨rfl, hp⟩
        · rw [g5]; simp [hm]
    · rintro x e ⟨hx, hx', hs, h2, hm⟩
      exact ⟨hx, hx', (by trivial), (by trivial), hs, h2, [], List.nil_prefix, by simpa using hm⟩

/-- All the connected state does. -/
theorem app_marks {St : Type} (a c : St) (s : Ses St) :
    wp (awaitApplicationData env a c) s
      (fun new s' => s'.st = s.st ∧ s'.eng.saved = s.eng.saved ∧ s'.eng.closeRecv = s.eng.closeRecv
        ∧ (s.eng.closeRecv = true ∧ new = c ∧ s'.queued = s.queued
            ∧ marks s'.eng.log = (ctAlert, [1, 0]) :: marks s.eng.log
          ∨ s.eng.closeRecv = false ∧ new = a ∧ s'.queued = []
            ∧ marks s'.eng.log = (s.queued.map fun d => (ctAppData, d)).reverse ++ marks s.eng.log))
      (fun f s' => f ≠ .transient ∧ f ≠ .diverge ∧ s'.st = s.st ∧ s'.eng.saved = s.eng.saved
        ∧ s'.eng.closeRecv = s.eng.closeRecv
        ∧ (s.eng.closeRecv = true ∧ s'.queued = s.queued ∧ marks s'.eng.log = marks s.eng.log
          ∨ s.eng.closeRecv = false ∧ s'.queued = [] ∧ ∃ pre, pre <+: s.queued
            ∧ marks s'.eng.log = (pre.map fun d => (ctAppData, d)).reverse ++ marks s.eng.log)) := by
  unfold awaitApplicationData sendCloseNotify drainQueued
  simp only [bind_eq, pure_eq, wp_bind, wp_get]
  cases hc : s.eng.closeRecv with
  | true =>
    simp only [if_true, wp_bind, wp_onEng', wp_onEng, wp_pure]
    refine wp_mono (createRecord_wp env.toEnv ctAlert [1, 0] (discardPendingWrites s.eng) (by decide)) ?_ ?_
    · rintro _ e ⟨hs, h2, hm⟩
      exact ⟨(by trivial), hs, h2.trans hc, .inl ⟨(by trivial), (by trivial), (by trivial), hm⟩⟩
    · rintro x e ⟨hx, hx', hs, h2, hm⟩
      exact ⟨hx, hx', (by trivial), hs, h2.trans hc, .inl ⟨(by trivial), (by trivial), hm⟩⟩
  | false =>
    simp only [Bool.false_eq_true, if_false, wp_bind, wp_get, wp_set, wp_pure]
    refine wp_mono (drainLoop_marks s.queued { s with queued := [] }) ?_ ?_
    · rintro _ s' ⟨g1, g2, g3, g4, g5⟩
      exact ⟨g1, g3, g4.trans hc, .inr ⟨(by trivial), (by trivial), g2, g5⟩⟩
    · rintro x s' ⟨hx, hx', g1, g2, g3, g4, g5⟩
      exact ⟨hx, hx', g1, g3, g4.trans hc, .inr ⟨(by trivial), g2, g5⟩⟩

/-- All a state other than the connected one does. -/
theorem step_marks (hr : RoleOk R env) (s : Ses R.St) (h : s.st ≠ R.app) :
    Marked s.eng (R.step env s.st s).2.eng ∧ (R.step env s.st s).2.queued = s.queued
    ∧ (R.step env s.st s).2.st = s.st := by
  obtain ⟨h1, h2, h3, _⟩ := hr.fr (frame_marked env.toEnv) s.st h s
  exact ⟨h1, h2, h3⟩

/-! ## C37 -/

theorem alerts_of (l : List Ev) (d : List Bytes) (m : List (UInt8 × Bytes))
    (h : marks l = (d.map fun d => (ctAppData, d)).reverse ++ m) :
    alerts l = m.filterMap fun x => if x.1 = ctAlert then some x.2 else none := by
  unfold alerts
  rw [h, List.filterMap_append]
  have : ((d.map fun d => (ctAppData, d)).reverse.filterMap
      fun x : UInt8 × Bytes => if x.1 = ctAlert then some x.2 else none) = [] := by
    rw [List.filterMap_eq_nil_iff]
    intro x hx
    rw [List.mem_reverse, List.mem_map] at hx
    obtain ⟨_, _, rfl⟩ := hx
    rfl
  rw [this]; rfl

theorem apps_of (l : List Ev) (d : List Bytes) (m : List (UInt8 × Bytes))
    (h : marks l = (d.map fun d => (ctAppData, d)).reverse ++ m) :
    apps l = d.reverse ++ m.filterMap fun x => if x.1 = ctAppData then some x.2 else none := by
  unfold apps
  rw [h, List.filterMap_append]
  congr 1
  rw [← List.map_reverse, List.filterMap_map]
  generalize d.reverse = d
  induction d with
  | nil => rfl
  | cons x d ih =>
    rw [List.filterMap_cons, ih]
    rfl

theorem alerts_cons {l : List Ev} {d : Bytes} {m : List (UInt8 × Bytes)} (h : marks l = (ctAlert, d) :: m) :
    alerts l = d :: m.filterMap fun x => if x.1 = ctAlert then some x.2 else none := by
  unfold alerts; rw [h]; rfl

theorem apps_cons {l : List Ev} {d : Bytes} {m : List (UInt8 × Bytes)} (h : marks l = (ctAlert, d) :: m) :
    apps l = m.filterMap fun x => if x.1 = ctAppData then some x.2 else none := by
  unfold apps; rw [h]; rfl

/-- At most one alert has been queued, a close_notify, and none as long as the session is not closed. -/
structure OneAlert (R : Role) (s : Ses R.St) : Prop where
  clean : Clean s.eng
  one : alerts s.eng.log = [] ∨ s.st = R.closed ∧ alerts s.eng.log = [[1, 0]]

theorem OneAlert.marked {s s' : Ses R.St} (h : OneAlert R s) (hm : Marked s.eng s'.eng) (hs : s'.st = s.st) :
    OneAlert R s' := by
  obtain ⟨h1, h2, _⟩ := hm h.clean
  refine ⟨h1, ?_⟩
  have : alerts s'.eng.log = alerts s.eng.log := by unfold alerts; rw [h2]
  rw [this, hs]; exact h.one

theorem oneAlert_stable (hr : RoleOk R env) : Stable R env (fun _ => True) (OneAlert R) where
  packet s p h := h.marked (s' := { s with eng := _ }) ((inFrame_marked env.toEnv).parsePacket p s.eng) rfl
  note s n h := h.marked (noteTime_marked n s).1 (noteTime_marked n s).2.2
  timeout s n h := h.marked (s' := { s with eng := _ }) (handleTimeout_marked env.toEnv n s.eng) rfl
  step s h := by
    by_cases ha : s.st = R.app
    · rw [ha, hr.app]
      have ho : alerts s.eng.log = [] := by
        rcases h.one with h | ⟨h, _⟩
        · exact h
        · exact absurd (ha.symm.trans h) hr.ne
      refine wp_mono (app_marks R.app R.closed s) ?_ ?_
      · rintro new s' ⟨h1, h2, _, ⟨_, rfl, _, hm⟩ | ⟨_, rfl, _, hm⟩⟩
        · refine ⟨h1.trans ha, fun x hx => h.clean x (h2 ▸ hx), .inr ⟨rfl, ?_⟩⟩
          have := alerts_cons hm
          rw [show (marks s.eng.log).filterMap _ = alerts s.eng.log from rfl, ho] at this
          exact this
        · exact ⟨h1.trans ha, fun x hx => h.clean x (h2 ▸ hx), .inl ((alerts_of _ _ _ hm).trans ho)⟩
      · rintro f s' ⟨_, _, h1, h2, _, ⟨_, _, hm⟩ | ⟨_, _, pre, _, hm⟩⟩
        · refine ⟨fun x hx => h.clean x (h2 ▸ hx), .inl ?_⟩
          have : alerts s'.eng.log = alerts s.eng.log := by unfold alerts; rw [hm]
          rw [this, ho]
        · exact ⟨fun x hx => h.clean x (h2 ▸ hx), .inl ((alerts_of _ _ _ hm).trans ho)⟩
    · by_cases hcl : s.st = R.closed
      · rw [hcl, hr.closed]
        exact ⟨hcl, h.clean, hcl ▸ h.one⟩
      · have ho : alerts s.eng.log = [] := by
          rcases h.one with h | ⟨h, _⟩
          · exact h
          · exact absurd h hcl
        obtain ⟨g1, g2, g3⟩ := step_marks hr s ha
        obtain ⟨g4, g5, _⟩ := g1 h.clean
        have g6 : alerts (R.step env s.st s).2.eng.log = [] := by
          unfold alerts; rw [g5]; exact ho
        refine wp_of ?_ ?_
        · intro new s' e
          rw [e] at g3 g4 g6
          exact ⟨g3, g4, .inl g6⟩
        · intro f s' e
          rw [e] at g3 g4 g6
          exact ⟨g4, .inl g6⟩
  send s d _ h := by
    apply of_wp (m := sendM R env d) (OneAlert R)
    unfold sendM
    simp only [bind_eq, wp_bind, wp_get]
    split
    · exact h
    · split
      · exact ⟨h.clean, h.one⟩
      · rename_i hcl _
        simp only [wp_onEng]
        have ho : alerts s.eng.log = [] := by
          rcases h.one with h | ⟨h, _⟩
          · exact h
          · exact absurd h hcl
        refine wp_mono (createRecord_wp env.toEnv ctAppData d s.eng (by decide)) ?_ ?_
        · rintro _ e ⟨hs, _, hm⟩
          exact ⟨fun x hx => h.clean x (hs ▸ hx), .inl ((alerts_of _ [d] _ hm).trans ho)⟩
        · rintro x e ⟨_, _, hs, _, hm⟩
          exact ⟨fun x hx => h.clean x (hs ▸ hx), .inl ((alerts_of _ [] _ hm).trans ho)⟩
  close s h := by
    apply of_wp (m := closeM R env) (OneAlert R)
    unfold closeM sendCloseNotify
    simp only [bind_eq, wp_bind, wp_get, pure_eq]
    by_cases hcl : s.st = R.closed
    · rw [if_pos hcl]; exact h
    · rw [if_neg hcl]
      have ho : alerts s.eng.log = [] := by
        rcases h.one with h | ⟨h, _⟩
        · exact h
        · exact absurd h hcl
      split
      · exact ⟨fun x hx => (by cases hx), .inl ho⟩
      · simp only [wp_bind, wp_onEng, wp_modify]
        refine wp_mono (createRecord_wp env.toEnv ctAlert [1, 0] s.eng (by decide)) ?_ ?_
        · rintro _ e ⟨hs, _, hm⟩
          refine ⟨fun x hx => h.clean x (hs ▸ hx), .inr ⟨rfl, ?_⟩⟩
          have := alerts_cons hm
          rw [show (marks s.eng.log).filterMap _ = alerts s.eng.log from rfl, ho] at this
          exact this
        · rintro x e ⟨_, _, hs, _, hm⟩
          exact ⟨fun x hx => h.clean x (hs ▸ hx), .inl ((alerts_of _ [] _ hm).trans ho)⟩
  poll s n h := h.marked (pollM_marked n s).1 (pollM_marked n s).2.2

theorem OneAlert.start {cfg : Cfg} {s0 : Ses R.St} (h : Start env cfg R s0) : OneAlert R s0 := by
  refine ⟨(Start.clean h).1, .inl ?_⟩
  rw [(Start.clean h).2.1]; rfl

/-- Over a whole execution at most one alert is put on the transmit queue; it is a close_notify, and
the session is closed then. -/
theorem at_most_one_close_notify {cfg : Cfg} {s0 : Ses R.St} (h : Start env cfg R s0) (cs : List Call) :
    let s := (run R env s0 cs).2
    alerts s.eng.log = [] ∨ s.st = R.closed ∧ alerts s.eng.log = [[1, 0]] :=
  ((oneAlert_stable (Start.roleOk h)).run s0 cs (fun _ _ => trivial) (.start h)).one

/-- `close` succeeding closes the session; closing a connected one queues exactly one close_notify and
nothing else, closing an unconnected one queues nothing. -/
theorem close_ok {cfg : Cfg} {s0 : Ses R.St} (h : Start env cfg R s0) (cs : List Call)
    (hok : (call R env (run R env s0 cs).2 .close).1 = .res .ok) :
    let s := (run R env s0 cs).2
    let s' := (call R env s .close).2
    s'.st = R.closed
    ∧ (s.st = R.app → marks s'.eng.log = (ctAlert, [1, 0]) :: marks s.eng.log)
    ∧ (s.st ≠ R.app → marks s'.eng.log = marks s.eng.log) := by
  generalize (run R env s0 cs).2 = s at hok
  dsimp only
  have hw : wp (closeM R env) s
      (fun _ s' => s'.st = R.closed
        ∧ (s.st = R.app → marks s'.eng.log = (ctAlert, [1, 0]) :: marks s.eng.log)
        ∧ (s.st ≠ R.app → marks s'.eng.log = marks s.eng.log)) (fun f _ => f ≠ .transient) := by
    unfold closeM sendCloseNotify
    simp only [bind_eq, wp_bind, wp_get, pure_eq]
    have hne := (Start.roleOk h).ne
    split
    · rename_i hcl
      exact ⟨hcl, fun ha => absurd (ha.symm.trans hcl) hne, fun _ => rfl⟩
    split
    · rename_i ha
      exact ⟨rfl, fun g => absurd g ha, fun _ => rfl⟩
    · rename_i ha
      have ha : s.st = R.app := Decidable.of_not_not ha
      simp only [wp_bind, wp_onEng, wp_modify]
      refine wp_mono (createRecord_wp env.toEnv ctAlert [1, 0] s.eng (by decide)) ?_ ?_
      · rintro _ e ⟨_, _, hm⟩
        exact ⟨trivial, fun _ => hm, fun g => absurd ha g⟩
      · rintro x e ⟨hx, _⟩
        exact hx
  unfold call at hok ⊢
  dsimp only at hok ⊢
  unfold wp at hw
  revert hok hw
  generalize closeM R env s = r
  obtain ⟨r, s'⟩ := r
  intro hok hw
  cases r with
  | ok => exact hw
  | fail f =>
    dsimp only at hok hw
    cases f <;> simp [toApi] at hok hw

/-- Nothing is queued by a closed session. -/
theorem closed_stable (hr : RoleOk R env) (m : List (UInt8 × Bytes)) :
    Stable R env (fun _ => True) (fun s => s.st = R.closed ∧ Clean s.eng ∧ marks s.eng.log = m) where
  packet s p h := by
    obtain ⟨g1, g2, _⟩ := (inFrame_marked env.toEnv).parsePacket p s.eng h.2.1
    exact ⟨h.1, g1, g2.trans h.2.2⟩
  note s n h := by
    obtain ⟨g1, g2, _⟩ := (noteTime_marked (env := env) n s).1 h.2.1
    exact ⟨(noteTime_marked n s).2.2.trans h.1, g1, g2.trans h.2.2⟩
  timeout s n h := by
    obtain ⟨g1, g2, _⟩ := handleTimeout_marked env.toEnv n s.eng h.2.1
    exact ⟨h.1, g1, g2.trans h.2.2⟩
  step s h := by
    rw [h.1, hr.closed]
    exact ⟨h.1, rfl, h.2.1, h.2.2⟩
  send s d _ h := by
    have : sendM R env d s = (.fail (.fatal .connectionClosed), s) := by
      unfold sendM; simp [M.bind, M.get, M.andThen, h.1, M.fatal, M.fail]
    rw [this]; exact h
  close s h := by
    have : closeM R env s = (.ok (), s) := by
      unfold closeM; simp [M.bind, M.get, M.andThen, h.1, M.pure]
    rw [this]; exact h
  poll s n h := by
    obtain ⟨g1, g2, _⟩ := (pollM_marked (R := R) n s).1 h.2.1
    exact ⟨(pollM_marked n s).2.2.trans h.1, g1, g2.trans h.2.2⟩

/-- After a session is closed, whatever happens: it stays closed, no application data and no alert is
queued any more, sending fails with `ConnectionClosed` and closing again succeeds, both without effect. -/
theorem after_close {cfg : Cfg} {s0 : Ses R.St} (h : Start env cfg R s0) (cs : List Call)
    (hc : (run R env s0 cs).2.st = R.closed) (more : List Call) :
    let s := (run R env (run R env s0 cs).2 more).2
    s.st = R.closed ∧ marks s.eng.log = marks (run R env s0 cs).2.eng.log
    ∧ (∀ d, call R env s (.send d) = (.res (.err .connectionClosed), s))
    ∧ call R env s .close = (.res .ok, s) := by
  have hr := Start.roleOk h
  have h1 := (oneAlert_stable hr).run s0 cs (fun _ _ => trivial) (.start h)
  have h2 := (closed_stable hr _).run _ more (fun _ _ => trivial) ⟨hc, h1.clean, rfl⟩
  refine ⟨h2.1, h2.2.2, fun d => ?_, ?_⟩
  · unfold call sendM; simp [M.bind, M.get, M.andThen, h2.1, M.fatal, M.fail, toApi]
  · unfold call closeM; simp [M.bind, M.get, M.andThen, h2.1, M.pure, toApi]

/-! ## C38 -/

/-- Nothing to transmit, nothing to retransmit, timers off. -/
def Still (e : Eng) : Prop :=
  e.tx = [] ∧ e.saved = [] ∧ e.timers.flight = .disabled ∧ e.timers.connect = .disabled

/-- Stillness is kept. -/
def Stills (e e' : Eng) : Prop := Still e → Still e'

theorem flightResend_stills (env : Env) (e : Eng) : Stills e (flightResend env e).2 := by
  intro h
  unfold flightResend
  dsimp only
  rw [h.2.1]
  unfold resendLoop
  refine ⟨?_, rfl, h.2.2⟩
  show (if e.release then e.tx else []) = []
  split
  · exact h.1
  · rfl

theorem inFrame_stills (env : Env) : InFrame env Stills where
  refl _ := id
  trans _ _ _ h g := fun x => g (h x)
  recv e p := by
    intro h
    obtain ⟨rp, cf, cr, es, he, hs⟩ := recordsParse_frame env p e
    rw [hs]; exact h
  resend := flightResend_stills env
  rx _ _ _ := id
  peerEnc _ := id

theorem handleTimeout_still (env : Env) (n : Nat) (e : Eng) (h : Still e) :
    (handleTimeout env n e).1 = .ok () ∧ Still (handleTimeout env n e).2 := by
  have ht : e.timers.handle e.cfg.handshakeTimeout n (env.jitter e.tick) = (e.timers, .idle) := by
    obtain ⟨_, _, h1, h2⟩ := h
    unfold Timers.handle Timers.arm Timeout.expired
    simp [h1, h2]
  unfold handleTimeout
  dsimp only
  rw [ht]
  exact ⟨rfl, h⟩

theorem still_stable (hr : RoleOk R env) :
    Stable R env (fun _ => True) (fun s => s.st = R.closed ∧ Still s.eng) where
  packet s p h := ⟨h.1, (inFrame_stills env.toEnv).parsePacket p s.eng h.2⟩
  note s n h := by
    unfold noteTime
    split
    · exact h
    · exact h
  timeout s n h := ⟨h.1, (handleTimeout_still env.toEnv n s.eng h.2).2⟩
  step s h := by
    rw [h.1, hr.closed]
    exact ⟨h.1, rfl, h.2⟩
  send s d _ h := by
    have : sendM R env d s = (.fail (.fatal .connectionClosed), s) := by
      unfold sendM; simp [M.bind, M.get, M.andThen, h.1, M.fatal, M.fail]
    rw [this]; exact h
  close s h := by
    have : closeM R env s = (.ok (), s) := by
      unfold closeM; simp [M.bind, M.get, M.andThen, h.1, M.pure]
    rw [this]; exact h
  poll s n h := by
    unfold pollM
    split
    · exact h
    · refine ⟨h.1, ?_⟩
      have hp : ∀ e : Eng, Still e → Still (pollRest n s.lastNow e).2 := by
        intro e he
        unfold pollRest
        rw [he.1]
        dsimp only
        split
        · exact ⟨rfl, he.2⟩
        · exact he
      unfold pollOutput
      dsimp only
      repeat' split
      · exact h.2
      · exact h.2
      · exact hp _ h.2
      · exact hp _ h.2

/-- An output that does not ask the user to transmit anything, nor to come back soon. -/
def Silent : Output → Prop
  | .eng (.packet _) => False
  | .eng (.timeout t) => distantFuture ≤ t
  | _ => True

theorem silent_poll (n : Nat) (s : Ses R.St) (h : Still s.eng) : Silent (pollM R n s).1 := by
  have hp : ∀ e : Eng, Still e → Silent (.eng (pollRest n s.lastNow e).1) := by
    intro e he
    unfold pollRest
    rw [he.1]
    dsimp only
    split
    · trivial
    · show distantFuture ≤ e.timers.poll s.lastNow
      unfold Timers.poll
      rw [if_pos ⟨he.2.2.2, he.2.2.1⟩]
      omega
  unfold pollM
  split
  · dsimp only
    rename_i e _ _
    cases e with
    | peerCert =>
      unfold eventOutput
      split
      · trivial
      · trivial
      · split
        · trivial
        · split <;> trivial
    | connected => trivial
    | keyingMaterial _ _ => trivial
  · dsimp only
    unfold pollOutput
    dsimp only
    repeat' split
    · trivial
    · trivial
    · exact hp _ h
    · exact hp _ h

theorem silent_hist (hr : RoleOk R env) :
    HStable R env (fun _ => True) (fun s => s.st = R.closed ∧ Still s.eng) (fun os _ => ∀ o ∈ os, Silent o) where
  packet _ _ _ _ h := h
  note _ _ _ _ h := h
  timeout _ _ _ _ h := h
  step os s hi h := by
    rw [hi.1, hr.closed]
    exact h
  send _ _ _ _ _ h := h
  close _ _ _ h := h
  poll os s n hi h := by
    intro o ho
    rcases List.mem_append.1 ho with ho | ho
    · exact h o ho
    · rw [List.mem_singleton.1 ho]; exact silent_poll n s hi.2

/-- `close` during the handshake, then any calls: no datagram is put out, no timeout to come back for
before the distant future is reported, and no timeout ever fires. -/
theorem close_silent {cfg : Cfg} {s0 : Ses R.St} (h : Start env cfg R s0) (cs more : List Call)
    (ha : (run R env s0 cs).2.st ≠ R.app) (hc : (run R env s0 cs).2.st ≠ R.closed) :
    let s1 := (call R env (run R env s0 cs).2 .close).2
    let r := run R env s1 more
    (call R env (run R env s0 cs).2 .close).1 = .res .ok
    ∧ (∀ o ∈ outputs r.1, Silent o)
    ∧ ∀ n, (handleTimeout env.toEnv n r.2.eng).1 = .ok ()
      ∧ (call R env r.2 (.timeout n)).1 = .res .ok := by
  generalize (run R env s0 cs).2 = s at ha hc
  have hr := Start.roleOk h
  have hcl : call R env s .close = (.res .ok, { s with st := R.closed, eng := abort s.eng }) := by
    unfold call closeM
    simp [M.bind, M.get, M.andThen, ha, hc, onEng', M.modify, toApi]
  rw [hcl]
  dsimp only
  have h0 : R.closed = R.closed ∧ Still (abort s.eng) := ⟨rfl, rfl, rfl, rfl, rfl⟩
  refine ⟨rfl, ?_, ?_⟩
  · have := (silent_hist hr).run (still_stable hr) [] { s with st := R.closed, eng := abort s.eng } more
      (fun _ _ => trivial) h0 (fun _ h => by cases h)
    simpa using this
  · intro n
    have h1 := (still_stable hr).run { s with st := R.closed, eng := abort s.eng } more
      (fun _ _ => trivial) h0
    generalize (run R env { s with st := R.closed, eng := abort s.eng } more).2 = s2 at h1
    refine ⟨(handleTimeout_still _ n _ h1.2).1, ?_⟩
    have h2 := (still_stable hr).note s2 n h1
    have h3 := handleTimeout_still env.toEnv n _ h2.2
    show Ret.res (toApi (handleTimeoutM R env n s2).1) = _
    unfold handleTimeoutM
    simp only [bind_eq, M.bind, M.modify, M.andThen, onEng, M.zoom]
    revert h3
    generalize handleTimeout env.toEnv n (noteTime R env n s2).eng = r
    obtain ⟨r, e⟩ := r
    rintro ⟨h3, h4⟩
    dsimp only at h3
    subst h3
    dsimp only
    show Ret.res (toApi (progress R env (39 + 1) _).1) = _
    unfold progress
    simp [M.bind, M.get, M.andThen, h2.1, hr.closed, M.pure, toApi]

/-! ## C48 -/

/-- The data of the `send` calls that succeeded. -/
def accepted : List Call → List Ret → List Bytes
  | .send d :: cs, .res .ok :: rs => d :: accepted cs rs
  | _ :: cs, _ :: rs => accepted cs rs
  | _, _ => []

/-- No call handing in a datagram or the time returned an error. -/
def smooth : List Call → List Ret → Bool
  | .packet _ :: cs, r :: rs => r == .res .ok && smooth cs rs
  | .timeout _ :: cs, r :: rs => r == .res .ok && smooth cs rs
  | _ :: cs, _ :: rs => smooth cs rs
  | _, _ => true

/-- What was transmitted is a subsequence of what was accepted; what is still queued comes after it,
unless the peer has closed. -/
structure Order (R : Role) (acc : List Bytes) (s : Ses R.St) : Prop where
  clean : Clean s.eng
  sent : ((apps s.eng.log).reverse).Sublist acc
  rest : (s.eng.closeRecv = true ∧ (s.st = R.app ∨ s.st = R.closed)) ∨
    ((apps s.eng.log).reverse ++ s.queued).Sublist acc

/-- A connected session has nothing queued. -/
def Drained (R : Role) (s : Ses R.St) : Prop := s.st = R.app → s.queued = [] ∨ s.eng.closeRecv = true

/-- What was transmitted and what is queued is exactly what was accepted. -/
def Exact (R : Role) (acc : List Bytes) (s : Ses R.St) : Prop :=
  s.eng.closeRecv = false → (apps s.eng.log).reverse ++ s.queued = acc

theorem apps_marks {l l' : List Ev} (h : marks l = marks l') : apps l = apps l' := by
  unfold apps; rw [h]

theorem Order.marked {acc : List Bytes} {s s' : Ses R.St} (h : Order R acc s) (hm : Marked s.eng s'.eng)
    (hq : s'.queued = s.queued) (hs : s'.st = s.st) : Order R acc s' := by
  obtain ⟨h1, h2, h3⟩ := hm h.clean
  refine ⟨h1, apps_marks h2 ▸ h.sent, ?_⟩
  rcases h.rest with ⟨g1, g2⟩ | g
  · exact .inl ⟨h3 g1, hs ▸ g2⟩
  · exact .inr (by rw [apps_marks h2, hq]; exact g)

theorem Drained.marked {s s' : Ses R.St} (h : Drained R s) (hc : Clean s.eng) (hm : Marked s.eng s'.eng)
    (hq : s'.queued = s.queued) (hs : s'.st = s.st) : Drained R s' := by
  intro ha
  rcases h (hs ▸ ha) with g | g
  · exact .inl (hq.trans g)
  · exact .inr ((hm hc).2.2 g)

theorem Exact.marked {acc : List Bytes} {s s' : Ses R.St} (h : Exact R acc s) (hc : Clean s.eng)
    (hm : Marked s.eng s'.eng) (hq : s'.queued = s.queued) : Exact R acc s' := by
  obtain ⟨_, h2, h3⟩ := hm hc
  intro g
  have : s.eng.closeRecv = false := by
    cases hb : s.eng.closeRecv
    · rfl
    · rw [h3 hb] at g; cases g
  rw [apps_marks h2, hq]
  exact h this

theorem step_order (hr : RoleOk R env) (acc : List Bytes) (s : Ses R.St) (h : Order R acc s) :
    wp (R.step env s.st) s
      (fun new s' => s'.st = s.st ∧ Order R acc { s' with st := new } ∧ (new = s.st → Drained R s')
        ∧ (Exact R acc s → Exact R acc { s' with st := new }))
      (fun f s' => Order R acc s' ∧ Drained R s' ∧ (Exact R acc s → f = .transient → Exact R acc s')) := by
  by_cases ha : s.st = R.app
  · rw [ha, hr.app]
    refine wp_mono (app_marks R.app R.closed s) ?_ ?_
    · rintro new s' ⟨h1, h2, h3, ⟨hc, rfl, hq, hm⟩ | ⟨hc, rfl, hq, hm⟩⟩
      · have hap : apps s'.eng.log = apps s.eng.log := apps_cons hm
        refine ⟨h1.trans ha, ⟨fun x hx => h.clean x (h2 ▸ hx), by rw [hap]; exact h.sent,
          .inl ⟨h3.trans hc, .inr rfl⟩⟩, fun g => absurd g.symm hr.ne, fun _ g => ?_⟩
        rw [show s'.eng.closeRecv = true from h3.trans hc] at g
        cases g
      · have hap : (apps s'.eng.log).reverse = (apps s.eng.log).reverse ++ s.queued := by
          rw [apps_of _ _ _ hm, List.reverse_append, List.reverse_reverse]; rfl
        have hsub : ((apps s'.eng.log).reverse).Sublist acc := by
          rw [hap]
          rcases h.rest with ⟨g, _⟩ | g
          · rw [hc] at g; cases g
          · exact g
        refine ⟨h1.trans ha, ⟨fun x hx => h.clean x (h2 ▸ hx), hsub, .inr ?_⟩, fun _ _ => .inl hq, fun hj _ => ?_⟩
        · show ((apps s'.eng.log).reverse ++ s'.queued).Sublist acc
          rw [hq, List.append_nil]; exact hsub
        · show (apps s'.eng.log).reverse ++ s'.queued = acc
          rw [hq, List.append_nil, hap]; exact hj hc
    · rintro f s' ⟨hf, _, h1, h2, h3, ⟨hc, hq, hm⟩ | ⟨hc, hq, pre, hp, hm⟩⟩
      · refine ⟨⟨fun x hx => h.clean x (h2 ▸ hx), apps_marks hm ▸ h.sent, .inl ⟨h3.trans hc, .inl (h1.trans ha)⟩⟩,
          fun _ => .inr (h3.trans hc), fun _ g => absurd g hf⟩
      · have hap : (apps s'.eng.log).reverse = (apps s.eng.log).reverse ++ pre := by
          rw [apps_of _ _ _ hm, List.reverse_append, List.reverse_reverse]; rfl
        have hsub : ((apps s'.eng.log).reverse).Sublist acc := by
          rw [hap]
          rcases h.rest with ⟨g, _⟩ | g
          · rw [hc] at g; cases g
          · exact ((List.Sublist.refl _).append hp.sublist).trans g
        refine ⟨⟨fun x hx => h.clean x (h2 ▸ hx), hsub, .inr ?_⟩, fun _ => .inl hq, fun _ g => absurd g hf⟩
        rw [hq, List.append_nil]; exact hsub
  · by_cases hcl : s.st = R.closed
    · rw [hcl, hr.closed]
      refine ⟨hcl, ⟨h.clean, h.sent, ?_⟩, fun _ g => absurd (hcl ▸ g) ha, fun hj => hj⟩
      rcases h.rest with ⟨g, _⟩ | g
      · exact .inl ⟨g, .inr rfl⟩
      · exact .inr g
    · obtain ⟨g1, g2, g3⟩ := step_marks hr s ha
      have ho : Order R acc (R.step env s.st s).2 := h.marked g1 g2 g3
      have hst : (R.step env s.st s).2.st ≠ R.app ∧ (R.step env s.st s).2.st ≠ R.closed := by
        rw [g3]; exact ⟨ha, hcl⟩
      refine wp_of ?_ ?_
      · intro new s' e
        rw [e] at g1 g2 g3 ho hst
        refine ⟨g3, ⟨ho.clean, ho.sent, ?_⟩, fun _ g => absurd g hst.1, fun hj => ?_⟩
        · rcases ho.rest with ⟨_, g | g⟩ | g
          · exact absurd g hst.1
          · exact absurd g hst.2
          · exact .inr g
        · exact hj.marked (s' := { s' with st := new }) h.clean g1 g2
      · intro f s' e
        rw [e] at g1 g2 g3 ho hst
        exact ⟨ho, fun g => absurd g hst.1, fun hj _ => hj.marked h.clean g1 g2⟩

theorem progress_order (hr : RoleOk R env) (acc : List Bytes) (fuel : Nat) (s : Ses R.St) (h : Order R acc s) :
    wp (progress R env fuel) s
      (fun _ s' => Order R acc s' ∧ Drained R s' ∧ (Exact R acc s → Exact R acc s'))
      (fun f s' => Order R acc s' ∧ (f ≠ .diverge → Drained R s')
        ∧ (Exact R acc s → f = .transient → Exact R acc s')) := by
  induction fuel generalizing s with
  | zero => exact ⟨h, fun g => absurd rfl g, fun _ g => by cases g⟩
  | succ n ih =>
    unfold progress
    simp only [bind_eq, pure_eq, wp_bind, wp_get]
    refine wp_mono (step_order hr acc s h) ?_ ?_
    · rintro new s' ⟨h1, h2, h3, h4⟩
      split
      · rename_i he
        subst he
        rw [wp_pure]
        have : s' = { s' with st := s.st } := by rw [← h1]
        exact ⟨this ▸ h2, h3 rfl, fun hj => this ▸ h4 hj⟩
      · simp only [wp_bind, wp_modify]
        refine wp_mono (ih _ h2) ?_ ?_
        · rintro _ s'' ⟨g1, g2, g3⟩
          exact ⟨g1, g2, fun hj => g3 (h4 hj)⟩
        · rintro f s'' ⟨g1, g2, g3⟩
          exact ⟨g1, g2, fun hj => g3 (h4 hj)⟩
    · rintro f s' ⟨g1, g2, g3⟩
      exact ⟨g1, fun _ => g2, g3⟩

/-- Everything at once, between calls. -/
structure Good (R : Role) (sm : Bool) (acc : List Bytes) (s : Ses R.St) : Prop where
  order : Order R acc s
  drained : Drained R s
  exact : sm = true → Exact R acc s

/-- The result of a call that handed in a datagram or the time. -/
theorem result_good {acc : List Bytes} {sm : Bool} (m : P R.St Unit) (s : Ses R.St) (P : Prop)
    (hsm : sm = true → P)
    (h : wp m s (fun _ s' => Order R acc s' ∧ Drained R s' ∧ (P → Exact R acc s'))
      (fun f s' => Order R acc s' ∧ (f ≠ .diverge → Drained R s') ∧ (P → f = .transient → Exact R acc s'))) :
    Order R acc (m s).2 ∧ (toApi (m s).1 ≠ .diverge → Good R (sm && Ret.res (toApi (m s).1) == .res .ok) acc (m s).2)
    ∧ (sm = true → toApi (m s).1 = .ok → Exact R acc (m s).2) := by
  unfold wp at h
  generalize m s = r at h ⊢
  obtain ⟨r, s'⟩ := r
  cases r with
  | ok a =>
    obtain ⟨h1, h2, h3⟩ := h
    exact ⟨h1, fun _ => ⟨h1, h2, fun g => h3 (hsm (by simp at g; exact g.1))⟩, fun g _ => h3 (hsm g)⟩
  | fail f =>
    obtain ⟨h1, h2, h3⟩ := h
    have hf : toApi (.fail f : Res Unit) = .ok → f = .transient := by
      cases f <;> simp [toApi]
    refine ⟨h1, fun g => ⟨h1, h2 ?_, fun g => ?_⟩, fun g g' => h3 (hsm g) (hf g')⟩
    · rintro rfl; exact g rfl
    · simp at g
      exact h3 (hsm g.1) (hf g.2)

theorem call_good (hr : RoleOk R env) (sm : Bool) (acc : List Bytes) (s : Ses R.St) (c : Call)
    (h : Good R sm acc s) :
    let r := call R env s c
    Order R (acc ++ accepted [c] [r.1]) r.2
    ∧ (r.1 ≠ .res .diverge → Good R (sm && smooth [c] [r.1]) (acc ++ accepted [c] [r.1]) r.2)
    ∧ (sm = true → smooth [c] [r.1] = true → Exact R (acc ++ accepted [c] [r.1]) r.2) := by
  cases c with
  | packet p =>
    have hw : wp (handlePacketM R env p) s
        (fun _ s' => Order R acc s' ∧ Drained R s' ∧ (Exact R acc s → Exact R acc s'))
        (fun f s' => Order R acc s' ∧ (f ≠ .diverge → Drained R s')
          ∧ (Exact R acc s → f = .transient → Exact R acc s')) := by
      unfold handlePacketM
      simp only [bind_eq, wp_bind, wp_onEng]
      refine wp_mono (wp_state (R := fun e => Marked s.eng e) |>.mpr
        ((inFrame_marked env.toEnv).parsePacket p s.eng)) ?_ ?_
      · intro _ e he
        have ho := h.order.marked (s' := { s with eng := e }) he rfl rfl
        refine wp_mono (progress_order hr acc progressFuel _ ho) ?_ ?_
        · rintro _ s' ⟨g1, g2, g3⟩
          exact ⟨g1, g2, fun hj => g3 (hj.marked (s' := { s with eng := e }) h.order.clean he rfl)⟩
        · rintro _ s' ⟨g1, g2, g3⟩
          exact ⟨g1, g2, fun hj => g3 (hj.marked (s' := { s with eng := e }) h.order.clean he rfl)⟩
      · intro _ e he
        exact ⟨h.order.marked he rfl rfl, fun _ => h.drained.marked h.order.clean he rfl rfl,
          fun hj _ => hj.marked (s' := { s with eng := e }) h.order.clean he rfl⟩
    have := result_good (sm := sm) (handlePacketM R env p) s _ h.exact hw
    simpa [call, accepted, smooth] using this
  | timeout n =>
    have hn := noteTime_marked (R := R) (env := env) n s
    have hno : Order R acc (noteTime R env n s) := h.order.marked hn.1 hn.2.1 hn.2.2
    have hnd : Drained R (noteTime R env n s) := h.drained.marked h.order.clean hn.1 hn.2.1 hn.2.2
    have hnj : Exact R acc s → Exact R acc (noteTime R env n s) := fun hj => hj.marked h.order.clean hn.1 hn.2.1
    have hw : wp (handleTimeoutM R env n) s
        (fun _ s' => Order R acc s' ∧ Drained R s' ∧ (Exact R acc s → Exact R acc s'))
        (fun f s' => Order R acc s' ∧ (f ≠ .diverge → Drained R s')
          ∧ (Exact R acc s → f = .transient → Exact R acc s')) := by
      unfold handleTimeoutM
      simp only [bind_eq, wp_bind, wp_onEng, wp_modify]
      generalize noteTime R env n s = t at hno hnd hnj
      refine wp_mono (wp_state (R := fun e => Marked t.eng e) |>.mpr
        (handleTimeout_marked env.toEnv n t.eng)) ?_ ?_
      · intro _ e he
        have ho := hno.marked (s' := { t with eng := e }) he rfl rfl
        refine wp_mono (progress_order hr acc progressFuel _ ho) ?_ ?_
        · rintro _ s' ⟨g1, g2, g3⟩
          exact ⟨g1, g2, fun hj => g3 ((hnj hj).marked (s' := { t with eng := e }) hno.clean he rfl)⟩
        · rintro _ s' ⟨g1, g2, g3⟩
          exact ⟨g1, g2, fun hj => g3 ((hnj hj).marked (s' := { t with eng := e }) hno.clean he rfl)⟩
      · intro _ e he
        exact ⟨hno.marked he rfl rfl, fun _ => hnd.marked hno.clean he rfl rfl,
          fun hj _ => (hnj hj).marked (s' := { t with eng := e }) hno.clean he rfl⟩
    have := result_good (sm := sm) (handleTimeoutM R env n) s _ h.exact hw
    simpa [call, accepted, smooth] using this
  | send d =>
    have key : Good R sm (acc ++ accepted [.send d] [(call R env s (.send d)).1]) (call R env s (.send d)).2 := by
      unfold call sendM
      simp only [bind_eq, M.bind, M.get, M.andThen]
      by_cases hcl : s.st = R.closed
      · simp only [hcl, if_pos, M.fatal, M.fail, toApi, accepted, List.append_nil]
        exact h
      · rw [if_neg hcl]
        by_cases ha : s.st = R.app
        · have hn : ¬ s.st ≠ R.app := fun g => g ha
          rw [if_neg hn]
          have hw := createRecord_wp env.toEnv ctAppData d s.eng (by decide)
          simp only [onEng, M.zoom]
          revert hw
          unfold wp
          generalize createRecord env.toEnv ctAppData 1 false false d s.eng = r
          obtain ⟨r, e⟩ := r
          cases r with
          | ok a =>
            rintro ⟨hs, hc, hm⟩
            have hap : (apps e.log).reverse = (apps s.eng.log).reverse ++ [d] := by
              rw [apps_of _ [d] _ hm, List.reverse_append]; rfl
            have hsub : ((apps e.log).reverse).Sublist (acc ++ [d]) := by
              rw [hap]; exact h.order.sent.append (.refl _)
            simp only [toApi, accepted]
            have hb := h.drained ha
            refine ⟨⟨fun x hx => h.order.clean x (hs ▸ hx), hsub, ?_⟩, fun _ => ?_, fun g hf => ?_⟩
            · rcases hb with hb | hb
              · exact .inr (by rw [hb, List.append_nil]; exact hsub)
              · exact .inl ⟨hc.trans hb, .inl ha⟩
            · rcases hb with hb | hb
              · exact .inl hb
              · exact .inr (hc.trans hb)
            · have hf' : s.eng.closeRecv = false := hc.symm.trans hf
              have hb : s.queued = [] := by
                rcases hb with hb | hb
                · exact hb
                · rw [hf'] at hb; cases hb
              have := h.exact g hf'
              rw [hb, List.append_nil] at this
              show (apps e.log).reverse ++ s.queued = acc ++ [d]
              rw [hb, List.append_nil, hap, this]
          | fail f =>
            rintro ⟨h1, _, hs, hc, hm⟩
            have hacc : acc ++ accepted [.send d] [.res (toApi (.fail f : Res Unit))] = acc := by
              cases f with
              | transient => exact absurd rfl h1
              | _ => simp [toApi, accepted]
            dsimp only
            rw [hacc]
            have hM : Marked s.eng e := fun hcl => ⟨fun x hx => hcl x (hs ▸ hx), hm, fun g => hc.trans g⟩
            exact ⟨h.order.marked hM rfl rfl, h.drained.marked h.order.clean hM rfl rfl,
              fun g => (h.exact g).marked (s' := { s with eng := e }) h.order.clean hM rfl⟩
        · rw [if_pos ha]
          simp only [M.modify, toApi, accepted]
          have hq : ((apps s.eng.log).reverse ++ s.queued).Sublist acc := by
            rcases h.order.rest with ⟨_, g | g⟩ | g
            · exact absurd g ha
            · exact absurd g hcl
            · exact g
          refine ⟨⟨h.order.clean, h.order.sent.trans (List.sublist_append_left ..), .inr ?_⟩,
            fun g => absurd g ha, fun g hf => ?_⟩
          · rw [← List.append_assoc]; exact hq.append (.refl _)
          · show (apps s.eng.log).reverse ++ (s.queued ++ [d]) = _
            rw [← List.append_assoc, h.exact g hf]
    dsimp only
    refine ⟨key.order, fun _ => ?_, fun g _ => key.exact g⟩
    simpa [smooth] using key
  | close =>
    have key : Good R sm acc (call R env s .close).2 := by
      show Good R sm acc (closeM R env s).2
      apply of_wp (m := closeM R env) (Good R sm acc)
      unfold closeM sendCloseNotify
      simp only [bind_eq, wp_bind, wp_get, pure_eq]
      by_cases hcl : s.st = R.closed
      · rw [if_pos hcl]; exact h
      · rw [if_neg hcl]
        have hr2 : ∀ e : Eng, Clean e → apps e.log = apps s.eng.log → e.closeRecv = s.eng.closeRecv →
            Good R sm acc { s with eng := e, st := R.closed } := by
          intro e h1 h2 h3
          refine ⟨⟨h1, h2 ▸ h.order.sent, ?_⟩, fun g => absurd g.symm hr.ne, fun g hf => ?_⟩
          · rcases h.order.rest with ⟨g, _⟩ | g
            · exact .inl ⟨h3.trans g, .inr rfl⟩
            · exact .inr (by show (List.Sublist ((apps e.log).reverse ++ s.queued) acc); rw [h2]; exact g)
          · show (apps e.log).reverse ++ s.queued = acc
            rw [h2]; exact h.exact g (h3.symm.trans hf)
        by_cases ha : s.st = R.app
        · have hn : ¬ s.st ≠ R.app := fun g => g ha
          rw [if_neg hn]
          simp only [wp_bind, wp_onEng, wp_modify]
          refine wp_mono (createRecord_wp env.toEnv ctAlert [1, 0] s.eng (by decide)) ?_ ?_
          · rintro _ e ⟨hs, hc, hm⟩
            exact hr2 e (fun x hx => h.order.clean x (hs ▸ hx)) (apps_cons hm) hc
          · rintro _ e ⟨h1, _, hs, hc, hm⟩
            have hM : Marked s.eng e := fun hcl => ⟨fun x hx => hcl x (hs ▸ hx), hm, fun g => hc.trans g⟩
            exact ⟨h.order.marked hM rfl rfl, h.drained.marked h.order.clean hM rfl rfl,
              fun g => (h.exact g).marked (s' := { s with eng := e }) h.order.clean hM rfl⟩
        · rw [if_pos ha]
          exact hr2 (abort s.eng) (fun x hx => by cases hx) rfl rfl
    have hacc : acc ++ accepted [.close] [(call R env s .close).1] = acc := by simp [accepted]
    dsimp only
    rw [hacc]
    refine ⟨key.order, fun _ => ?_, fun g _ => key.exact g⟩
    simpa [smooth] using key
  | poll n =>
    have hp := pollM_marked (R := R) n s
    have key : Good R sm acc (pollM R n s).2 :=
      ⟨h.order.marked hp.1 hp.2.1 hp.2.2, h.drained.marked h.order.clean hp.1 hp.2.1 hp.2.2,
        fun g => (h.exact g).marked h.order.clean hp.1 hp.2.1⟩
    have hacc : acc ++ accepted [.poll n] [(call R env s (.poll n)).1] = acc := by simp [accepted]
    dsimp only
    rw [hacc]
    refine ⟨key.order, fun _ => ?_, fun g _ => key.exact g⟩
    have : (sm && smooth [.poll n] [(call R env s (.poll n)).1]) = sm := by simp [smooth]
    rw [this]; exact key

theorem accepted_cons (c : Call) (r : Ret) (cs : List Call) (rs : List Ret) :
    accepted (c :: cs) (r :: rs) = accepted [c] [r] ++ accepted cs rs := by
  cases c <;> cases r <;> try rfl
  rename_i a; cases a <;> rfl

theorem smooth_cons (c : Call) (r : Ret) (cs : List Call) (rs : List Ret) :
    smooth (c :: cs) (r :: rs) = (smooth [c] [r] && smooth cs rs) := by
  cases c <;> simp [smooth]

theorem run_good (hr : RoleOk R env) (cs : List Call) (sm : Bool) (acc : List Bytes) (s : Ses R.St)
    (h : Good R sm acc s) :
    let r := run R env s cs
    Order R (acc ++ accepted cs r.1) r.2 ∧ (sm = true → smooth cs r.1 = true → Exact R (acc ++ accepted cs r.1) r.2)
    ∧ (.res .diverge ∉ r.1 → Drained R r.2) := by
  induction cs generalizing sm acc s with
  | nil =>
    have : acc ++ accepted [] (run R env s []).1 = acc := by simp [accepted]
    dsimp only
    rw [this]
    exact ⟨h.order, fun g _ => h.exact g, fun _ => h.drained⟩
  | cons c cs ih =>
    obtain ⟨h1, h2, h3⟩ := call_good hr sm acc s c h
    have hc : run R env s (c :: cs) =
        if (call R env s c).1 = .res .panic ∨ (call R env s c).1 = .res .diverge ∨ (call R env s c).1 = .out .panic
        then ([(call R env s c).1], (call R env s c).2)
        else ((call R env s c).1 :: (run R env (call R env s c).2 cs).1, (run R env (call R env s c).2 cs).2) := rfl
    dsimp only
    rw [hc]
    split
    · have he : accepted (c :: cs) [(call R env s c).1] = accepted [c] [(call R env s c).1] := by
        rw [accepted_cons]
        have : accepted cs [] = [] := by cases cs with | nil => rfl | cons a l => cases a <;> rfl
        rw [this, List.append_nil]
      have he' : smooth (c :: cs) [(call R env s c).1] = smooth [c] [(call R env s c).1] := by
        rw [smooth_cons]
        have : smooth cs [] = true := by cases cs with | nil => rfl | cons a l => cases a <;> rfl
        rw [this, Bool.and_true]
      dsimp only
      rw [he, he']
      exact ⟨h1, h3, fun g => (h2 (fun e => g (by simp [e]))).drained⟩
    · rename_i hn
      have hd : (call R env s c).1 ≠ .res .diverge := fun g => hn (.inr (.inl g))
      have := ih _ _ _ (h2 hd)
      dsimp only at this ⊢
      rw [accepted_cons, smooth_cons, ← List.append_assoc]
      refine ⟨this.1, fun g g' => ?_, fun g => this.2.2 (fun g' => g (by simp [g']))⟩
      rw [Bool.and_eq_true] at g'
      exact this.2.1 (by rw [g, g'.1]; rfl) g'.2

theorem Good.start {cfg : Cfg} {s0 : Ses R.St} (h : Start env cfg R s0) : Good R true [] s0 := by
  obtain ⟨h1, h2, h3, h4, h5⟩ := Start.clean h
  have ha : apps s0.eng.log = [] := by rw [h2]; rfl
  refine ⟨⟨h1, by rw [ha]; exact .refl _, .inr (by rw [ha, h3]; exact .refl _)⟩, fun g => absurd g h5,
    fun _ _ => by rw [ha, h3]; rfl⟩

/-- In every execution the application data put on the transmit queue is a subsequence of the data of
the successful `send` calls: nothing is transmitted twice, out of order, or without having been sent. -/
theorem sent_once_in_order {cfg : Cfg} {s0 : Ses R.St} (h : Start env cfg R s0) (cs : List Call) :
    let r := run R env s0 cs
    ((apps r.2.eng.log).reverse).Sublist (accepted cs r.1) := by
  have := (run_good (Start.roleOk h) cs true [] s0 (.start h)).1.sent
  simpa using this

/-- Exactly once: if no datagram and no timeout was answered with an error and the peer has not closed,
then everything accepted is on the transmit queue or still queued; in a connected session nothing is
still queued. Partial: an error while the queue is flushed loses the rest (`queued_data_lost`). -/
theorem sent_exactly_once_partial {cfg : Cfg} {s0 : Ses R.St} (h : Start env cfg R s0) (cs : List Call)
    (hs : smooth cs (run R env s0 cs).1 = true) (hc : (run R env s0 cs).2.eng.closeRecv = false) :
    let r := run R env s0 cs
    (apps r.2.eng.log).reverse ++ r.2.queued = accepted cs r.1
    ∧ (r.2.st = R.app → .res .diverge ∉ r.1 →
      r.2.queued = [] ∧ (apps r.2.eng.log).reverse = accepted cs r.1) := by
  obtain ⟨_, h2, h3⟩ := run_good (Start.roleOk h) cs true [] s0 (.start h)
  dsimp only at h2 h3 ⊢
  have h2 := h2 rfl hs hc
  rw [List.nil_append] at h2
  refine ⟨h2, fun ha hd => ?_⟩
  have hq : (run R env s0 cs).2.queued = [] := by
    rcases h3 hd ha with g | g
    · exact g
    · rw [hc] at g; cases g
  refine ⟨hq, ?_⟩
  rw [hq, List.append_nil] at h2
  exact h2

end

/-! ## Concrete cases -/

open E12.Demo

/-- A client that is handed `n` messages before its handshake completes. -/
def early (n : Nat) : List Call :=
  .timeout 0 :: (List.range n).map (fun i => .send (List.replicate 100 (UInt8.ofNat i)))
    ++ (clientCalls pskEnv).drop 1

def earlyRun (n : Nat) : List Ret × Ses CSt := run C12.role pskEnv (C12.start pskEnv cfg 0) (early n)

/-- Three messages, all sent on connecting. -/
example : smooth (early 3) (earlyRun 3).1 = true ∧ (earlyRun 3).2.eng.closeRecv = false
    ∧ (earlyRun 3).2.st = .awaitApplicationData ∧ (accepted (early 3) (earlyRun 3).1).length = 3
    ∧ (apps (earlyRun 3).2.eng.log).length = 3 := by decide +kernel

/-- The transmit queue holds ten datagrams. Fifteen messages are accepted while the handshake runs; on
connecting the flush fails with `TransmitQueueFull`, and what did not fit is gone: it is neither on the
transmit queue nor queued, although every `send` returned Ok. -/
theorem queued_data_lost :
    (accepted (early 15) (earlyRun 15).1).length = 15 ∧ (earlyRun 15).2.st = .awaitApplicationData
    ∧ .res (.err .transmitQueueFull) ∈ (earlyRun 15).1
    ∧ (apps (earlyRun 15).2.eng.log).length < 15 ∧ (earlyRun 15).2.queued = [] := by decide +kernel

/-- A connected client closes, then is sent to again. -/
example : (clientRun pskEnv [.close]).2.st = .closed
    ∧ alerts (clientRun pskEnv [.close]).2.eng.log = [[1, 0]]
    ∧ (call C12.role pskEnv (clientRun pskEnv [.close]).2 (.send [1])).1 = .res (.err .connectionClosed) := by
  decide +kernel

/-- A client that has its ClientHello queued closes. -/
example :
    let s : Ses CSt := (run C12.role pskEnv (C12.start pskEnv cfg 0) [.timeout 0]).2
    s.st = .awaitHelloVerifyRequest ∧ s.eng.tx.length = 1 ∧ s.eng.timers.flight ≠ .disabled
    ∧ outputs (run C12.role pskEnv (call C12.role pskEnv s .close).2 [.timeout 5000000000, .poll 2000]).1
      = [.eng (.timeout (5000000000 + distantFuture))] := by decide +kernel

end Verif.Props.Close12

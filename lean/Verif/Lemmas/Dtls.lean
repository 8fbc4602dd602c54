import Verif.Model.Dtls
import Verif.Lemmas.Role12
import Verif.Lemmas.Role13
import Verif.Lemmas.Fall13
import Verif.Lemmas.Start12
import Verif.Lemmas.Run13
import Verif.Props.Auto
/-!
# The dispatcher: sessions behind it, fresh sessions
-/
namespace Verif.Dtls
open Verif Verif.M
open Verif.E12 (Call Ret ApiRes Output toApi)

/-- Nothing follows such a return. -/
def Ends (r : Ret) : Prop := r = .res .panic ∨ r = .res .diverge ∨ r = .out .panic

instance (r : Ret) : Decidable (Ends r) := by unfold Ends; infer_instance

theorem run_cons (env : Env) (d : Dtls) (c : DCall) (cs : List DCall) :
    run env d (c :: cs) = if Ends (call env d c).1 then ([(call env d c).1], (call env d c).2)
      else ((call env d c).1 :: (run env (call env d c).2 cs).1, (run env (call env d c).2 cs).2) := rfl

/-- A life in two parts. -/
theorem run_append (env : Env) (d : Dtls) (a b : List DCall)
    (h : ∀ r ∈ (run env d a).1, ¬ Ends r) :
    run env d (a ++ b) = ((run env d a).1 ++ (run env (run env d a).2 b).1, (run env (run env d a).2 b).2) := by
  induction a generalizing d with
  | nil => rfl
  | cons c a ih =>
    rw [List.cons_append, run_cons, run_cons]
    rw [run_cons] at h
    by_cases he : Ends (call env d c).1
    · rw [if_pos he] at h
      exact absurd he (h _ (List.mem_singleton.mpr rfl))
    · rw [if_neg he] at h
      rw [if_neg he, if_neg he, ih _ fun r hr => h r (List.mem_cons_of_mem _ hr)]
      rfl

/-! ## Sessions behind the dispatcher -/

theorem client12_call (env : Env) (e : E12.PEnv) (s : E12.Ses E12.CSt) (c : Call) :
    call env (some (.client12 e s)) (.api c) =
    ((E12.call E12.C12.role e s c).1, some (.client12 e (E12.call E12.C12.role e s c).2)) := by
  cases c <;> rfl

theorem server12_call (env : Env) (e : E12.PEnv) (s : E12.Ses E12.SSt) (c : Call) :
    call env (some (.server12 e s)) (.api c) =
    ((E12.call E12.S12.role e s c).1, some (.server12 e (E12.call E12.S12.role e s c).2)) := by
  cases c <;> rfl

theorem client13_call (env : Env) (e : E13.PEnv) (s : E13.Ses E13.CSt) (c : Call) :
    call env (some (.client13 e s)) (.api c) =
    ((E13.call E13.C13.role e s c).1, some (.client13 e (E13.call E13.C13.role e s c).2)) := by
  cases c <;> rfl

theorem server13_call (env : Env) (e : E13.PEnv) (s : E13.Ses E13.SSt) (c : Call) (h : s.autoMode = false) :
    call env (some (.server13 e s)) (.api c) =
    ((E13.call E13.S13.role e s c).1, some (.server13 e (E13.call E13.S13.role e s c).2)) := by
  have h1 : ∀ p, (E13.call E13.S13.role e s (.packet p)) =
      (.res (toApi (E13.handlePacketM E13.S13.role e p s).1), (E13.handlePacketM E13.S13.role e p s).2) :=
    fun _ => rfl
  cases c with
  | packet p => rw [h1]; simp [call, callInner, handlePacket, h]
  | _ => simp [call, callInner, h]

theorem run12_cons (R : E12.Role) (e : E12.PEnv) (s : E12.Ses R.St) (c : Call) (cs : List Call) :
    E12.run R e s (c :: cs) = if Ends (E12.call R e s c).1 then ([(E12.call R e s c).1], (E12.call R e s c).2)
      else ((E12.call R e s c).1 :: (E12.run R e (E12.call R e s c).2 cs).1,
        (E12.run R e (E12.call R e s c).2 cs).2) := rfl

theorem run13_cons (R : E13.Role) (e : E13.PEnv) (s : E13.Ses R.St) (c : Call) (cs : List Call) :
    E13.run R e s (c :: cs) = if Ends (E13.call R e s c).1 then ([(E13.call R e s c).1], (E13.call R e s c).2)
      else ((E13.call R e s c).1 :: (E13.run R e (E13.call R e s c).2 cs).1,
        (E13.run R e (E13.call R e s c).2 cs).2) := rfl

/-- A value that passes its calls on to a DTLS 1.2 session. -/
theorem lift12 {env : Env} {R : E12.Role} {e : E12.PEnv} {mk : E12.Ses R.St → Inner}
    (h : ∀ s c, call env (some (mk s)) (.api c) = ((E12.call R e s c).1, some (mk (E12.call R e s c).2)))
    (s : E12.Ses R.St) (cs : List Call) :
    run env (some (mk s)) (cs.map .api) = ((E12.run R e s cs).1, some (mk (E12.run R e s cs).2)) := by
  induction cs generalizing s with
  | nil => rfl
  | cons c cs ih =>
    rw [List.map_cons, run_cons, run12_cons, h]
    dsimp only
    rw [ih]
    split <;> rfl

/-- A value that passes its calls on to a DTLS 1.3 session. -/
theorem lift13 {env : Env} {R : E13.Role} {e : E13.PEnv} {mk : E13.Ses R.St → Inner} {I : E13.Ses R.St → Prop}
    (h : ∀ s c, I s → call env (some (mk s)) (.api c) = ((E13.call R e s c).1, some (mk (E13.call R e s c).2)))
    (hI : ∀ s c, I s → I (E13.call R e s c).2)
    (s : E13.Ses R.St) (h0 : I s) (cs : List Call) :
    run env (some (mk s)) (cs.map .api) = ((E13.run R e s cs).1, some (mk (E13.run R e s cs).2)) := by
  induction cs generalizing s with
  | nil => rfl
  | cons c cs ih =>
    rw [List.map_cons, run_cons, run13_cons, h s c h0]
    dsimp only
    rw [ih _ (hI s c h0)]
    split <;> rfl

theorem client12_run (env : Env) (e : E12.PEnv) (s : E12.Ses E12.CSt) (cs : List Call) :
    run env (some (.client12 e s)) (cs.map .api) =
    ((E12.run E12.C12.role e s cs).1, some (.client12 e (E12.run E12.C12.role e s cs).2)) :=
  lift12 (R := E12.C12.role) (mk := .client12 e) (client12_call env e) s cs

theorem server12_run (env : Env) (e : E12.PEnv) (s : E12.Ses E12.SSt) (cs : List Call) :
    run env (some (.server12 e s)) (cs.map .api) =
    ((E12.run E12.S12.role e s cs).1, some (.server12 e (E12.run E12.S12.role e s cs).2)) :=
  lift12 (R := E12.S12.role) (mk := .server12 e) (server12_call env e) s cs

theorem client13_run (env : Env) (e : E13.PEnv) (s : E13.Ses E13.CSt) (cs : List Call) :
    run env (some (.client13 e s)) (cs.map .api) =
    ((E13.run E13.C13.role e s cs).1, some (.client13 e (E13.run E13.C13.role e s cs).2)) :=
  lift13 (R := E13.C13.role) (mk := .client13 e) (I := fun _ => True) (fun s c _ => client13_call env e s c)
    (fun _ _ _ => trivial) s trivial cs

theorem server13_run (env : Env) (e : E13.PEnv) (s : E13.Ses E13.SSt) (h : s.autoMode = false) (cs : List Call) :
    run env (some (.server13 e s)) (cs.map .api) =
    ((E13.run E13.S13.role e s cs).1, some (.server13 e (E13.run E13.S13.role e s cs).2)) :=
  lift13 (R := E13.S13.role) (mk := .server13 e) (I := fun s => s.autoMode = false)
    (fun s c h => server13_call env e s c h) (fun s c h => E13.S13.call_auto s c h) s h cs

/-! ## The `handle_timeout` of a new session -/

theorem fresh_timers (rto retries T now : Nat) (j j' : Int) (h : 0 < T) :
    ∃ t, (Timer.Timers.new rto retries j).handle T now j' = (t, .waiting) := by
  have hr : ∀ b : Timer.Backoff, ¬ now + b.rtoNow ≤ now := by intro b; unfold Timer.Backoff.rtoNow; omega
  have hT : ¬ now + T ≤ now := by omega
  simp [Timer.Timers.handle, Timer.Timers.arm, Timer.Timers.new, Timer.Timeout.expired, hr, hT]

theorem fresh_timeout12 (env : E12.Env) (now rto retries : Nat) (j : Int) (e : E12.Eng)
    (ht : e.timers = .new rto retries j) (h0 : 0 < e.cfg.handshakeTimeout) :
    ∃ e', E12.handleTimeout env now e = (.ok (), e') ∧ e'.rx = e.rx := by
  obtain ⟨t, hh⟩ := fresh_timers rto retries e.cfg.handshakeTimeout now j (env.jitter e.tick) h0
  refine ⟨{ e with timers := t, tick := e.tick + 1 }, ?_, rfl⟩
  unfold E12.handleTimeout
  rw [ht, hh]

theorem fresh_timeout13 (env : E13.Env) (now rto retries : Nat) (j : Int) (e : E13.Eng)
    (ht : e.timers = .new rto retries j) (h0 : 0 < e.cfg.handshakeTimeout) (hs : e.hsSend = none) :
    ∃ e', E13.handleTimeout env now e = (.ok (), e') ∧ e'.rx = e.rx := by
  obtain ⟨t, hh⟩ := fresh_timers rto retries e.cfg.handshakeTimeout now j (env.jitter e.tick) h0
  refine ⟨{ e with timers := t, tick := e.tick + 1, ackDeadline := none }, ?_, rfl⟩
  unfold E13.handleTimeout
  rw [ht, hh]
  simp [E13.ackDuty, E13.scheduleAck, E13.flushAck, E13.inProgress, hs]

/-- A new session that waits for a message stays in its state. -/
theorem timeout12_ok {R : E12.Role} {env : E12.PEnv} {now rto retries : Nat} {j : Int} {s : E12.Ses R.St}
    (ht : s.eng.timers = .new rto retries j) (hrx : s.eng.rx = []) (h0 : 0 < s.eng.cfg.handshakeTimeout)
    (hstep : ∀ t : E12.Ses R.St, t.eng.rx = [] → ∃ t', R.step env s.st t = (.ok s.st, t')) :
    ∃ t', E12.handleTimeoutM R env now s = (.ok (), t') := by
  have hn : (E12.noteTime R env now s).eng.timers = s.eng.timers ∧ (E12.noteTime R env now s).eng.rx = [] ∧
      (E12.noteTime R env now s).eng.cfg = s.eng.cfg ∧ (E12.noteTime R env now s).st = s.st := by
    unfold E12.noteTime; split <;> exact ⟨rfl, hrx, rfl, rfl⟩
  unfold E12.handleTimeoutM
  simp only [bind_eq, M.bind, M.andThen, M.modify, E12.onEng, M.zoom]
  generalize E12.noteTime R env now s = u at hn
  obtain ⟨n1, n2, n3, n4⟩ := hn
  obtain ⟨e', he, hr⟩ := fresh_timeout12 env.toEnv now rto retries j u.eng (n1.trans ht) (by rw [n3]; exact h0)
  obtain ⟨t', hs⟩ := hstep { u with eng := e' } (hr.trans n2)
  rw [← n4] at hs
  refine ⟨t', ?_⟩
  rw [he]
  dsimp only
  show E12.progress R env (39 + 1) { u with eng := e' } = _
  unfold E12.progress
  simp only [bind_eq, M.bind, M.andThen, M.get, hs, if_true]
  rfl

theorem timeout13_ok {R : E13.Role} {env : E13.PEnv} {now rto retries : Nat} {j : Int} {s : E13.Ses R.St}
    (ht : s.eng.timers = .new rto retries j) (hrx : s.eng.rx = []) (h0 : 0 < s.eng.cfg.handshakeTimeout)
    (hd : s.eng.hsSend = none)
    (hstep : ∀ t : E13.Ses R.St, t.eng.rx = [] → ∃ t', R.step env s.st t = (.ok s.st, t')) :
    ∃ t', E13.handleTimeoutM R env now s = (.ok (), t') := by
  have hn : (E13.noteTime R env now s).eng.timers = s.eng.timers ∧ (E13.noteTime R env now s).eng.rx = [] ∧
      (E13.noteTime R env now s).eng.cfg = s.eng.cfg ∧ (E13.noteTime R env now s).st = s.st ∧
      (E13.noteTime R env now s).eng.hsSend = none := by
    unfold E13.noteTime; split <;> exact ⟨rfl, hrx, rfl, rfl, hd⟩
  unfold E13.handleTimeoutM
  simp only [bind_eq, M.bind, M.andThen, M.modify, E13.onEng, M.zoom]
  generalize E13.noteTime R env now s = u at hn
  obtain ⟨n1, n2, n3, n4, n5⟩ := hn
  obtain ⟨e', he, hr⟩ := fresh_timeout13 env.toEnv now rto retries j u.eng (n1.trans ht) (by rw [n3]; exact h0) n5
  obtain ⟨t', hs⟩ := hstep { u with eng := e' } (hr.trans n2)
  rw [← n4] at hs
  refine ⟨t', ?_⟩
  rw [he]
  dsimp only
  show E13.progress R env (39 + 1) { u with eng := e' } = _
  rw [E13.progress_succ]
  dsimp only
  rw [hs]
  dsimp only
  rw [if_pos rfl]

theorem hasComplete12_empty (e : E12.Eng) (w : UInt8) (h : e.rx = []) : E12.hasComplete e w = false := by
  unfold E12.hasComplete; rw [h]; rfl

theorem hasComplete13_empty (e : E13.Eng) (w : UInt8) (h : e.rx = []) : E13.hasComplete e w = false := by
  unfold E13.hasComplete; rw [h]; rfl

theorem fresh_server12 (env : E12.PEnv) (cfg : E12.Cfg) (now t0 : Nat) (h : 0 < cfg.handshakeTimeout) :
    ∃ t', E12.handleTimeoutM E12.S12.role env now (E12.S12.start env cfg t0) = (.ok (), t') :=
  timeout12_ok (R := E12.S12.role) (rto := cfg.startRto) (retries := cfg.retries) (j := env.jitter 0) rfl rfl h
    fun t ht => ⟨t, by
      show E12.S12.awaitClientHello env t = _
      unfold E12.S12.awaitClientHello
      simp [bind_eq, M.bind, M.andThen, E12.onEng, M.zoom, E12.nextHandshake, hasComplete12_empty _ _ ht]
      rfl⟩

theorem fresh_client12 (env : E12.PEnv) (cfg : E12.Cfg) (random fragment : Bytes) (now t0 : Nat)
    (h : 0 < cfg.handshakeTimeout) :
    ∃ t', E12.handleTimeoutM E12.C12.role env now (E12.C12.startHybrid env cfg random fragment t0) = (.ok (), t') :=
  timeout12_ok (R := E12.C12.role) (rto := cfg.startRto) (retries := cfg.retries) (j := env.jitter 0) rfl rfl h
    fun t ht => ⟨t, by
      show E12.C12.awaitHelloVerifyRequest env t = _
      unfold E12.C12.awaitHelloVerifyRequest
      simp [bind_eq, M.bind, M.andThen, M.get, E12.onEng, M.zoom, E12.nextHandshake, hasComplete12_empty _ _ ht]
      rfl⟩

theorem fresh_client13 (env : E13.PEnv) (cfg : E13.Cfg) (random transcript : Bytes) (kx : Nat × Nat) (now t0 : Nat)
    (h : 0 < cfg.handshakeTimeout) :
    ∃ t', E13.handleTimeoutM E13.C13.role env now (E13.C13.startHybrid env cfg random transcript kx t0) = (.ok (), t') :=
  timeout13_ok (R := E13.C13.role) (rto := cfg.startRto) (retries := cfg.retries) (j := env.jitter 0) rfl rfl h rfl
    fun t ht => ⟨t, by
      show E13.C13.awaitServerHello env t = _
      unfold E13.C13.awaitServerHello
      simp [bind_eq, M.bind, M.andThen, M.get, E13.onEng, M.zoom, E13.nextHandshake, E13.nextHandshakeWith,
        hasComplete13_empty _ _ ht]
      rfl⟩

/-! ## Lives in two parts -/

theorem run12_append (R : E12.Role) (e : E12.PEnv) (s : E12.Ses R.St) (a b : List Call)
    (h : ∀ r ∈ (E12.run R e s a).1, ¬ Ends r) :
    E12.run R e s (a ++ b) =
    ((E12.run R e s a).1 ++ (E12.run R e (E12.run R e s a).2 b).1, (E12.run R e (E12.run R e s a).2 b).2) := by
  induction a generalizing s with
  | nil => rfl
  | cons c a ih =>
    rw [List.cons_append, run12_cons, run12_cons]
    rw [run12_cons] at h
    by_cases he : Ends (E12.call R e s c).1
    · rw [if_pos he] at h
      exact absurd he (h _ (List.mem_singleton.mpr rfl))
    · rw [if_neg he] at h
      rw [if_neg he, if_neg he, ih _ fun r hr => h r (List.mem_cons_of_mem _ hr)]
      rfl

theorem run13_append (R : E13.Role) (e : E13.PEnv) (s : E13.Ses R.St) (a b : List Call)
    (h : ∀ r ∈ (E13.run R e s a).1, ¬ Ends r) :
    E13.run R e s (a ++ b) =
    ((E13.run R e s a).1 ++ (E13.run R e (E13.run R e s a).2 b).1, (E13.run R e (E13.run R e s a).2 b).2) := by
  induction a generalizing s with
  | nil => rfl
  | cons c a ih =>
    rw [List.cons_append, run13_cons, run13_cons]
    rw [run13_cons] at h
    by_cases he : Ends (E13.call R e s c).1
    · rw [if_pos he] at h
      exact absurd he (h _ (List.mem_singleton.mpr rfl))
    · rw [if_neg he] at h
      rw [if_neg he, if_neg he, ih _ fun r hr => h r (List.mem_cons_of_mem _ hr)]
      rfl

theorem run12_one (R : E12.Role) (e : E12.PEnv) (s : E12.Ses R.St) (c : Call) :
    E12.run R e s [c] = ([(E12.call R e s c).1], (E12.call R e s c).2) := by
  rw [run12_cons]; split <;> rfl

theorem run13_one (R : E13.Role) (e : E13.PEnv) (s : E13.Ses R.St) (c : Call) :
    E13.run R e s [c] = ([(E13.call R e s c).1], (E13.call R e s c).2) := by
  rw [run13_cons]; split <;> rfl

/-- What the replay of the retained datagrams amounts to: the session is fed them one by one up to the
first that fails. -/
theorem replay_run (e : E12.PEnv) (ps : List Bytes) (s : E12.Ses E12.SSt) :
    ∃ k ≤ ps.length, (replay e ps s).2 = (E12.run E12.S12.role e s ((ps.take k).map .packet)).2 ∧
      ((replay e ps s).1 = .ok → k = ps.length) ∧
      (¬ Ends (.res (replay e ps s).1) → ∀ r ∈ (E12.run E12.S12.role e s ((ps.take k).map .packet)).1, ¬ Ends r) := by
  induction ps generalizing s with
  | nil => exact ⟨0, Nat.le_refl _, rfl, fun _ => rfl, fun _ r hr => by cases hr⟩
  | cons p ps ih =>
    have hc : E12.call E12.S12.role e s (.packet p) =
      (.res (toApi (E12.handlePacketM E12.S12.role e p s).1), (E12.handlePacketM E12.S12.role e p s).2) := rfl
    by_cases ho : toApi (E12.handlePacketM E12.S12.role e p s).1 = .ok
    · obtain ⟨k, hk, h1, h2, h3⟩ := ih (E12.handlePacketM E12.S12.role e p s).2
      have hre : replay e (p :: ps) s = replay e ps (E12.handlePacketM E12.S12.role e p s).2 := by
        show (match toApi _ with | .ok => _ | r => _) = _
        rw [ho]
      have hru : E12.run E12.S12.role e s (((p :: ps).take (k + 1)).map .packet) =
          (.res .ok :: (E12.run E12.S12.role e (E12.handlePacketM E12.S12.role e p s).2 ((ps.take k).map .packet)).1,
            (E12.run E12.S12.role e (E12.handlePacketM E12.S12.role e p s).2 ((ps.take k).map .packet)).2) := by
        show E12.run E12.S12.role e s (.packet p :: (ps.take k).map .packet) = _
        refine (run12_cons E12.S12.role e s _ _).trans ?_
        have hc1 : (E12.call E12.S12.role e s (.packet p)).1 = .res .ok := by rw [hc, ho]
        rw [if_neg (by rw [hc1]; intro h; rcases h with h | h | h <;> cases h), hc1]
        rfl
      rw [hre]
      refine ⟨k + 1, by simp; omega, ?_, ?_, ?_⟩
      · rw [hru]; exact h1
      · intro h; rw [h2 h]; rfl
      · intro h r hr
        rw [hru] at hr
        rcases List.mem_cons.mp hr with rfl | hr
        · intro h; rcases h with h | h | h <;> cases h
        · exact h3 h r hr
    · have hre : replay e (p :: ps) s =
          (toApi (E12.handlePacketM E12.S12.role e p s).1, (E12.handlePacketM E12.S12.role e p s).2) := by
        show (match toApi _ with | .ok => _ | r => _) = _
        cases hx : toApi (E12.handlePacketM E12.S12.role e p s).1 with
        | ok => exact absurd hx ho
        | _ => rfl
      have hru : E12.run E12.S12.role e s (((p :: ps).take 1).map .packet) =
          ([.res (toApi (E12.handlePacketM E12.S12.role e p s).1)], (E12.handlePacketM E12.S12.role e p s).2) := by
        show E12.run E12.S12.role e s [.packet p] = _
        exact run12_one E12.S12.role e s _
      rw [hre]
      refine ⟨1, by simp, ?_, fun h => absurd h ho, ?_⟩
      · rw [hru]
      · intro h r hr
        rw [hru] at hr
        rw [List.mem_singleton.mp hr]
        exact h

end Verif.Dtls

import Verif.Lemmas.Clock12
import Verif.Props.Timer13
import Verif.Props.Demo12
/-!
# C31, C32, C53: deadlines of DTLS 1.2 sessions, over whole executions
-/
namespace Verif.Props.Timer12
open Verif Wire Timer Aead M E12
open Verif.Props.Timer13 (firstTimeout)
open Verif.Props.Timer (Ahead handle_ahead)

variable {R : Role} {env : PEnv} {cfg : Cfg} {s0 : Ses R.St}

/-- What a connect timer that nothing stops is after the calls. -/
theorem clock_eq (cfg : Cfg) (cs : List Call) :
    cs.foldl (fun x c => afterCall c x) (cfg, .unarmed) =
      (cfg, match firstTimeout cs with | none => .unarmed | some t => .armed (t + cfg.handshakeTimeout)) := by
  have armed : ∀ (cs : List Call) t, cs.foldl (fun x c => afterCall c x) (cfg, Timeout.armed t) = (cfg, .armed t) := by
    intro cs t
    induction cs with
    | nil => rfl
    | cons c cs ih => cases c <;> exact ih
  induction cs with
  | nil => rfl
  | cons c cs ih =>
    cases c with
    | timeout n => exact armed cs _
    | _ => exact ih

theorem start_role (h : Start env cfg R s0) : ∃ fin, TimeRole R env fin := by
  cases h
  · exact ⟨_, C12.timeRole env⟩
  · exact ⟨_, C12.timeRole env⟩
  · exact ⟨_, S12.timeRole env⟩

theorem start_kept (h : Start env cfg R s0) : Kept (cfg, .unarmed) s0 := by
  cases h <;> exact ⟨rfl, nofun, fun _ _ => rfl⟩

theorem kept (h : Start env cfg R s0) (cs : List Call) (hh : ∀ r ∈ (run R env s0 cs).1, ¬ Halts r) :
    Kept (cs.foldl (fun x c => afterCall c x) (cfg, .unarmed)) (run R env s0 cs).2 := by
  obtain ⟨fin, hr⟩ := start_role h
  exact (start_kept h).exec hr cs s0 hh

/-- The connect timer after `handle_timeout`, as the arming leaves it. -/
theorem handle_fires (t : Timers) (T n c : Nat) (j : Int) (h : t.connect = .armed c) (hc : c ≤ n) :
    (t.handle T n j).2 = .connectTimeout := by
  have h1 : (t.arm T n).connect = .armed c := by
    unfold Timers.arm
    simp only [h, reduceCtorEq, if_false]
    split
    · rfl
    · exact h
  unfold Timers.handle
  dsimp only
  rw [h1]
  simp [Timeout.expired, hc]

/-- A failure of the engine's part of `handle_timeout` is the result of the call. -/
theorem timeout_fails (s : Ses R.St) (n : Nat) (f : Fault)
    (h : (handleTimeout env.toEnv n (noteTime R env n s).eng).1 = .fail f) :
    (handleTimeoutM R env n s).1 = .fail f := by
  unfold handleTimeoutM
  simp only [bind_eq]
  change (M.bind (onEng (handleTimeout env.toEnv n)) (fun _ => progress R env progressFuel) (noteTime R env n s)).1 = _
  generalize noteTime R env n s = s1 at h
  unfold M.bind
  have h3 : ((onEng (handleTimeout env.toEnv n) : P R.St Unit) s1).1 = .fail f := h
  generalize (onEng (handleTimeout env.toEnv n) : P R.St Unit) s1 = x at h3
  obtain ⟨r, s'⟩ := x
  cases h3
  rfl

theorem note_eng (s : Ses R.St) (n : Nat) : SameTime s.eng (noteTime R env n s).eng ∧ (noteTime R env n s).lastNow = n := by
  unfold noteTime
  split <;> exact ⟨⟨rfl, rfl⟩, rfl⟩

/-- **C31.** While the handshake is under way (not connected, not closed) the deadline counted from the
first `handle_timeout` is enforced: whatever packets, timeouts, polls and sends came in between, the
first `handle_timeout` at or after it returns Timeout. -/
theorem deadline (h : Start env cfg R s0) (cs : List Call) (hh : ∀ r ∈ (run R env s0 cs).1, ¬ Halts r)
    (t0 n : Nat) (ht : firstTimeout cs = some t0) (hn : t0 + cfg.handshakeTimeout ≤ n)
    (ha : (run R env s0 cs).2.st ≠ R.app) (hc : (run R env s0 cs).2.st ≠ R.closed) :
    (call R env (run R env s0 cs).2 (.timeout n)).1 = .res (.err .timeoutConnect) := by
  have k := kept h cs hh
  rw [clock_eq, ht] at k
  have h1 := k.run ha hc
  generalize (run R env s0 cs).2 = s at h1
  have h2 : (handleTimeout env.toEnv n (noteTime R env n s).eng).1 = .fail (.fatal .timeoutConnect) := by
    have g : (noteTime R env n s).eng.timers.connect = .armed (t0 + cfg.handshakeTimeout) := by
      rw [(note_eng (env := env) s n).1.2]; exact h1
    have hf := handle_fires _ (noteTime R env n s).eng.cfg.handshakeTimeout n _ (env.jitter (noteTime R env n s).eng.tick) g hn
    unfold handleTimeout
    generalize (noteTime R env n s).eng = e at hf
    generalize e.timers.handle e.cfg.handshakeTimeout n (env.jitter e.tick) = r at hf
    obtain ⟨t, f⟩ := r
    cases hf
    rfl
  show Ret.res (toApi (handleTimeoutM R env n s).1) = _
  rw [timeout_fails s n _ h2]
  rfl

/-! ## C53 -/

/-- An error other than a timeout. -/
def NoTo {α : Type} : Res α → Prop
  | .fail (.fatal .timeoutConnect) => False
  | .fail (.fatal .timeoutHandshake) => False
  | _ => True

theorem createRecord_noTo (c : UInt8) (n : Nat) (a b : Bool) (d : Bytes) (e : Eng) :
    NoTo (createRecord env.toEnv c n a b d e).1 := by
  unfold createRecord
  split
  · trivial
  · dsimp only
    split
    · trivial
    · split
      · unfold sealRecord
        dsimp only
        repeat' split
        all_goals trivial
      · trivial

theorem noTo_bind {St α β : Type} {m : P St α} {f : α → P St β} {s : Ses St} (h : NoTo (m s).1)
    (g : ∀ a s', m s = (.ok a, s') → NoTo (f a s').1) : NoTo ((M.bind m f) s).1 := by
  unfold M.bind
  cases hm : m s with
  | mk r s' =>
    cases r with
    | ok a => exact g a s' hm
    | fail x =>
      rw [hm] at h
      revert h
      cases x with
      | fatal e => cases e <;> exact id
      | _ => exact fun _ => trivial

theorem drainLoop_noTo {St : Type} (ds : List Bytes) (s : Ses St) : NoTo (drainLoop env ds s).1 := by
  induction ds generalizing s with
  | nil => trivial
  | cons d rest ih =>
    unfold drainLoop
    exact noTo_bind (createRecord_noTo _ _ _ _ _ s.eng) fun _ s' _ => ih s'

theorem app_noTo {St : Type} (a b : St) (s : Ses St) : NoTo (awaitApplicationData env a b s).1 := by
  unfold awaitApplicationData sendCloseNotify drainQueued
  simp only [bind_eq, pure_eq]
  refine noTo_bind trivial fun s1 s' _ => ?_
  split
  · exact noTo_bind trivial fun _ s2 _ => noTo_bind (createRecord_noTo _ _ _ _ _ s2.eng) fun _ _ _ => trivial
  · refine noTo_bind (noTo_bind trivial fun s2 s3 _ => noTo_bind trivial fun _ s4 _ => drainLoop_noTo _ s4) fun _ _ _ => trivial

theorem progress_noTo (hr : RoleOk R env) (fuel : Nat) (s : Ses R.St) (h : s.st = R.app ∨ s.st = R.closed) :
    NoTo (progress R env fuel s).1 := by
  induction fuel generalizing s with
  | zero => trivial
  | succ n ih =>
    unfold progress
    simp only [bind_eq, pure_eq]
    refine noTo_bind trivial fun s1 s' he => ?_
    cases he
    refine noTo_bind ?_ fun new s2 h2 => ?_
    · rcases h with h | h
      · rw [h, hr.app]; exact app_noTo _ _ _
      · rw [h, hr.closed]; trivial
    · split
      · trivial
      · have hnew : new = R.app ∨ new = R.closed := by
          rcases h with h | h
          · rw [h, hr.app] at h2
            exact (awaitApplicationData_rets (S := fun x => x = R.app ∨ x = R.closed) (.inl rfl) (.inr rfl)) _ _ _ h2
          · rw [h, hr.closed] at h2
            cases h2
            exact .inr rfl
        exact noTo_bind trivial fun _ s3 h3 => by
          cases h3
          exact ih _ hnew

/-- **C53.** After Connected was output, no `handle_timeout` returns a timeout error, however late. -/
theorem connected_stays (h : Start env cfg R s0) (hd : DecShort env.toEnv) (cs : List Call)
    (hh : ∀ r ∈ (run R env s0 cs).1, ¬ Halts r) (hc : Output.connected ∈ outputs (run R env s0 cs).1) (n : Nat) :
    (call R env (run R env s0 cs).2 (.timeout n)).1 ≠ .res (.err .timeoutConnect) ∧
    (call R env (run R env s0 cs).2 (.timeout n)).1 ≠ .res (.err .timeoutHandshake) := by
  obtain ⟨fin, hr⟩ := start_role h
  have k := kept h cs hh
  obtain ⟨p, hp⟩ := h.hist hd cs
  have hst : (run R env s0 cs).2.st = R.app ∨ (run R env s0 cs).2.st = R.closed := by
    have h1 := hp.conn
    refine hp.rel ?_
    have h2 : 0 < (outputs (run R env s0 cs).1).count .connected := List.count_pos_iff.mpr hc
    cases hb : (shown (run R env s0 cs).2).release with
    | true => rfl
    | false =>
      rw [hb] at h1
      simp only [Bool.false_eq_true, if_false] at h1
      omega
  have hoff := k.off hst
  generalize (run R env s0 cs).2 = s at hst hoff
  have key : NoTo (handleTimeoutM R env n s).1 := by
    unfold handleTimeoutM
    simp only [bind_eq]
    change NoTo (M.bind (onEng (handleTimeout env.toEnv n)) (fun _ => progress R env progressFuel) (noteTime R env n s)).1
    have g : Off (noteTime R env n s).eng := by
      unfold Off
      rw [(note_eng (env := env) s n).1.2]; exact hoff
    have g2 : (noteTime R env n s).st = s.st := by unfold noteTime; split <;> rfl
    generalize noteTime R env n s = s1 at g g2
    refine noTo_bind ?_ fun _ s2 h2 => ?_
    · show NoTo (handleTimeout env.toEnv n s1.eng).1
      rw [(handleTimeout_off env.toEnv n s1.eng g).1]
      trivial
    · refine progress_noTo hr.role _ _ ?_
      have h3 : ((onEng (handleTimeout env.toEnv n) : P R.St Unit) s1).2.st = s1.st := rfl
      rw [h2] at h3
      rw [show s2.st = s.st from h3.trans g2]
      exact hst
  have e1 : (call R env s (.timeout n)).1 = .res (toApi (handleTimeoutM R env n s).1) := rfl
  rw [e1]
  generalize (handleTimeoutM R env n s).1 = r at key
  constructor <;>
  · intro hx
    rcases r with _ | f
    · cases hx
    · cases f with
      | fatal e => simp only [toApi, Ret.res.injEq, ApiRes.err.injEq] at hx; subst hx; exact key
      | _ => cases hx

/-! ## C32 -/

/-- A step relates the engines and keeps the clock. -/
theorem step_rel {U : Eng → Eng → Prop} (hr : RoleOk R env) (hf : Frame env.toEnv U)
    (ht : ∀ a b, SameTime a b → U a b) (s : Ses R.St) :
    U s.eng (R.step env s.st s).2.eng ∧ (R.step env s.st s).2.lastNow = s.lastNow := by
  by_cases ha : s.st = R.app
  · rw [ha, hr.app]
    have := app_time (env := env) R.app R.closed s
    exact ⟨ht _ _ this.1, this.2.2⟩
  · have := hr.fr hf s.st ha s
    exact ⟨this.1, this.2.2.2⟩

theorem progress_rel {U : Eng → Eng → Prop} (hr : RoleOk R env) (hf : Frame env.toEnv U)
    (ht : ∀ a b, SameTime a b → U a b) (fuel : Nat) (s : Ses R.St) :
    U s.eng (progress R env fuel s).2.eng ∧ (progress R env fuel s).2.lastNow = s.lastNow := by
  induction fuel generalizing s with
  | zero => exact ⟨hf.refl _, rfl⟩
  | succ n ih =>
    apply of_wp (m := progress R env (n + 1)) (R := fun s' : Ses R.St => U s.eng s'.eng ∧ s'.lastNow = s.lastNow)
    unfold progress
    simp only [bind_eq, pure_eq, wp_bind, wp_get]
    refine wp_mono (to_wp (R := fun s' : Ses R.St => U s.eng s'.eng ∧ s'.lastNow = s.lastNow) (step_rel hr hf ht s)) ?_
      (fun _ _ g => g)
    intro new s' g
    split
    · exact g
    · simp only [wp_bind, wp_modify]
      rw [wp_state]
      have := ih { s' with st := new }
      exact ⟨hf.trans _ _ _ g.1 this.1, this.2.trans g.2⟩

/-- Both timers are later than `n`; the flight timer may be unarmed. -/
def Later (n : Nat) (e : Eng) : Prop := Ahead n e.timers.connect ∧ FlightOk n e

theorem later_frame (env : Env) (n : Nat) : Frame env (fun a b => Later n a → Later n b) where
  toHsFrame := time_hs env (fun _ _ h g => by unfold Later FlightOk; rw [h.2]; exact g) (fun _ _ _ h g x => g (h x))
    fun _ h => ⟨h.1, fun _ hf => nomatch hf⟩
  flightStop _ _ := ⟨trivial, fun _ hf => nomatch hf⟩
  release _ h := h

/-- After a `handle_timeout` that succeeded. -/
theorem timeout_later (hr : RoleOk R env) (s : Ses R.St) (n : Nat)
    (ho : (call R env s (.timeout n)).1 = .res .ok) :
    Later n (call R env s (.timeout n)).2.eng ∧ (call R env s (.timeout n)).2.lastNow = n := by
  have h0 : (call R env s (.timeout n)).2 = (handleTimeoutM R env n s).2 := rfl
  have h1 : Ret.res (toApi (handleTimeoutM R env n s).1) = .res .ok := ho
  have h2 : Later n (handleTimeout env.toEnv n (noteTime R env n s).eng).2 := by
    have hfail := timeout_fails (env := env) s n
    generalize (noteTime R env n s).eng = e at hfail
    have hg := handle_ahead e.cfg.handshakeTimeout n (env.jitter e.tick) e.timers
    unfold handleTimeout at hfail ⊢
    generalize e.timers.handle e.cfg.handshakeTimeout n (env.jitter e.tick) = r at hg hfail
    obtain ⟨t, f⟩ := r
    have bad : ∀ x, (handleTimeoutM R env n s).1 ≠ .fail (.fatal x) := by
      intro x hx
      rw [hx] at h1
      cases h1
    have fine : Ahead n t.connect ∧ Ahead n t.flight → Later n { e with timers := t, tick := e.tick + 1 } := by
      intro g
      refine ⟨g.1, fun d hd => ?_⟩
      have g2 := g.2
      rw [show t.flight = .armed d from hd] at g2
      exact g2
    cases f with
    | idle => exact fine (hg ⟨nofun, nofun⟩)
    | waiting => exact fine (hg ⟨nofun, nofun⟩)
    | resend =>
      have g := fine (hg ⟨nofun, nofun⟩)
      have := (flightResend_frame env.toEnv { e with timers := t, tick := e.tick + 1 }).time
      dsimp only
      unfold Later FlightOk
      rw [this.2]
      exact g
    | connectTimeout => exact absurd (hfail _ rfl) (bad _)
    | handshakeTimeout => exact absurd (hfail _ rfl) (bad _)
  rw [h0]
  apply of_wp (m := handleTimeoutM R env n) (R := fun s' : Ses R.St => Later n s'.eng ∧ s'.lastNow = n)
  unfold handleTimeoutM
  simp only [bind_eq, wp_bind, wp_modify, wp_onEng]
  refine wp_mono (wp_state (R := fun e => Later n e) |>.mpr h2) ?_ ?_
  · intro _ e he
    rw [wp_state]
    have g := progress_rel hr (later_frame env.toEnv n) (fun _ _ h g => by unfold Later FlightOk; rw [h.2]; exact g)
      progressFuel { noteTime R env n s with eng := e }
    exact ⟨g.1 he, g.2.trans (note_eng (env := env) s n).2⟩
  · intro _ e he
    exact ⟨he, (note_eng (env := env) s n).2⟩

theorem poll_rest (bufLen now t : Nat) (e : Eng) (h : (pollOutput bufLen now e).1 = .timeout t) : t = e.timers.poll now := by
  unfold pollOutput pollRest at h
  dsimp only at h
  repeat' split at h
  all_goals first
    | (cases h; done)
    | (cases h; rfl)

/-- **C32.** After a `handle_timeout(n)` that returned Ok, polling (any number of times, with any buffers)
reports no timeout that is not later than `n`: an application that sleeps until the reported instant
does not spin. -/
theorem timeout_future (h : Start env cfg R s0) (cs : List Call) (n : Nat) (polls : List Nat)
    (hh : ∀ r ∈ (run R env s0 cs).1, ¬ Halts r)
    (ho : (call R env (run R env s0 cs).2 (.timeout n)).1 = .res .ok) (t : Nat)
    (ht : Output.eng (.timeout t) ∈
      outputs (run R env (call R env (run R env s0 cs).2 (.timeout n)).2 (polls.map .poll)).1) : n < t := by
  obtain ⟨fin, hr⟩ := start_role h
  have hl := timeout_later hr.role _ n ho
  have k : Kept _ (call R env (run R env s0 cs).2 (.timeout n)).2 :=
    (kept h cs hh).call hr _ (.timeout n) (by rw [ho]; decide)
  have hx : ∃ c, (afterCall (.timeout n) (cs.foldl (fun x c => afterCall c x) (cfg, .unarmed))).2 = .armed c := by
    rw [clock_eq]
    cases firstTimeout cs
    · exact ⟨_, rfl⟩
    · exact ⟨_, rfl⟩
  generalize afterCall (.timeout n) (cs.foldl (fun x c => afterCall c x) (cfg, .unarmed)) = x at k hx
  generalize (call R env (run R env s0 cs).2 (.timeout n)).2 = s at hl k ht
  clear ho hh h
  induction polls generalizing s with
  | nil => cases ht
  | cons b polls ih =>
    rw [List.map_cons] at ht
    have hcall : call R env s (.poll b) = (.out (pollM R b s).1, (pollM R b s).2) := rfl
    have hnext : Later n (pollM R b s).2.eng ∧ (pollM R b s).2.lastNow = n ∧ Kept x (pollM R b s).2 := by
      have hk := k.call (env := env) hr s (.poll b)
      unfold pollM
      split
      · exact ⟨hl.1, hl.2, k.time (.refl _) rfl⟩
      · have ht := pollOutput_time b s.lastNow s.eng
        refine ⟨?_, hl.2, k.time ht rfl⟩
        unfold Later FlightOk
        rw [ht.2]
        exact hl.1
    unfold run at ht
    simp only [hcall] at ht
    have first : Output.eng (.timeout t) = (pollM R b s).1 → n < t := by
      intro he
      unfold pollM at he
      split at he
      · rename_i e _ _
        unfold eventOutput at he
        repeat' split at he
        all_goals cases he
      · have he : (pollOutput b s.lastNow s.eng).1 = .timeout t := by
          injection he with he; exact he.symm
        rw [poll_rest b s.lastNow t s.eng he, hl.2]
        by_cases hst : s.st = R.app ∨ s.st = R.closed
        · obtain ⟨o1, o2⟩ := k.off hst
          unfold Timers.poll
          rw [if_pos ⟨o1, o2⟩]
          have : 0 < distantFuture := by decide
          omega
        · have hc := k.run (fun g => hst (.inl g)) (fun g => hst (.inr g))
          obtain ⟨c, hx⟩ := hx
          rw [hx] at hc
          have hn : n < c := by
            have := hl.1.1
            rw [hc] at this
            exact this
          unfold Timers.poll
          rw [hc]
          simp only [reduceCtorEq, false_and, if_false]
          split
          · next c' f h1 h2 =>
            cases h1
            have := hl.1.2 f h2
            split <;> omega
          · next c' h1 _ => cases h1; exact hn
          · next h1 => exact absurd rfl (h1 c)
          · next h1 _ _ => exact absurd rfl (h1 c)
    split at ht
    · have : Output.eng (.timeout t) = (pollM R b s).1 := by simpa [outputs] using ht
      exact first this
    · have ht : Output.eng (.timeout t) = (pollM R b s).1 ∨
          Output.eng (.timeout t) ∈ outputs (run R env (pollM R b s).2 (polls.map .poll)).1 := by
        simpa [outputs] using ht
      rcases ht with ht | ht
      · exact first ht
      · exact ih _ ⟨hnext.1, hnext.2.1⟩ hnext.2.2 ht

/-! ## Cases meeting the hypotheses -/

/-- A client in mid-handshake, whose deadline passes. -/
example : let cs := (Demo.clientCalls Demo.certEnv).take 4
    let r : List Ret × Ses CSt := run C12.role Demo.certEnv (C12.start Demo.certEnv Demo.cfg 0) cs
    (∀ x ∈ r.1, ¬ Halts x) ∧ firstTimeout cs = some 0 ∧ r.2.st ≠ .awaitApplicationData ∧ r.2.st ≠ .closed ∧
    r.2.st ≠ .awaitServerHello ∧
    (call C12.role Demo.certEnv r.2 (.timeout 39999999999)).1 ≠ .res (.err .timeoutConnect) ∧
    (call C12.role Demo.certEnv r.2 (.timeout 40000000000)).1 = .res (.err .timeoutConnect) := by
  decide +kernel

/-- A server that has sent its flight. -/
example : let cs := (Demo.serverCalls Demo.certEnv).take 4
    let r : List Ret × Ses SSt := run S12.role Demo.certEnv (S12.start Demo.certEnv Demo.cfg 0) cs
    (∀ x ∈ r.1, ¬ Halts x) ∧ firstTimeout cs = some 0 ∧ r.2.st ≠ .awaitApplicationData ∧ r.2.st ≠ .closed ∧
    r.2.st ≠ .awaitClientHello := by
  decide +kernel

/-- Connected sessions of both roles, long after the deadline. -/
example : let r := Demo.clientRun Demo.certEnv []
    let q := Demo.serverRun Demo.pskEnv []
    (∀ x ∈ r.1, ¬ Halts x) ∧ Output.connected ∈ outputs r.1 ∧
    (call C12.role Demo.certEnv r.2 (.timeout 90000000000)).1 = .res .ok ∧
    (∀ x ∈ q.1, ¬ Halts x) ∧ Output.connected ∈ outputs q.1 ∧
    (call S12.role Demo.pskEnv q.2 (.timeout 90000000000)).1 = .res .ok := by
  decide +kernel

/-- A `handle_timeout` of a client in mid-handshake that retransmits; the next polls yield the packets
and then an instant in the future. -/
example : let cs := (Demo.clientCalls Demo.certEnv).take 4
    let r : List Ret × Ses CSt := run C12.role Demo.certEnv (C12.start Demo.certEnv Demo.cfg 0) cs
    let c := call C12.role Demo.certEnv r.2 (.timeout 30000000000)
    c.1 = .res .ok ∧ (outputs (run C12.role Demo.certEnv c.2 ([2000, 2000, 2000, 2000].map .poll)).1).any
      (fun o => match o with
        | .eng (.timeout t) => decide (30000000000 < t)
        | _ => false) = true := by
  decide +kernel

end Verif.Props.Timer12

import Verif.Model.Timer
/-!
# C30, C31 and the timer part of C32
-/
namespace Verif.Props.Timer
open Verif.Timer

theorem arm_connect_armed (t : Timers) (T now c : Nat) (h : t.connect = .armed c) :
    (t.arm T now).connect = .armed c := by
  unfold Timers.arm
  by_cases hf : t.flight = .unarmed <;> simp [h, hf]

theorem arm_connect_unarmed (t : Timers) (T now : Nat) (h : t.connect = .unarmed) :
    (t.arm T now).connect = .armed (now + T) := by
  unfold Timers.arm
  by_cases hf : t.flight = .unarmed <;> simp [h, hf]

/-! ## C30: retransmission schedule -/

/-- Specification of one wait: the doubled base plus jitter, never below 50 ms (nanoseconds). -/
def wait (startRto k : Nat) (j : Int) : Nat :=
  (max ((startRto * 2 ^ k : Nat) + j : Int) 50000000).toNat

/-- What an application sees from one `handle_timeout`. -/
inductive Seen where
  | quiet | resend | giveUp
deriving DecidableEq, Repr

/-- Ideal schedule: `k` retransmissions have happened, the next deadline is `deadline`. -/
def ideal (startRto retries : Nat) : Nat → Nat → List (Nat × Int) → List Seen
  | _, _, [] => []
  | k, deadline, (now, j) :: rest =>
    if now < deadline then .quiet :: ideal startRto retries k deadline rest
    else if k < retries then
      .resend :: ideal startRto retries (k + 1) (now + wait startRto (k + 1) j) rest
    else .giveUp :: ideal startRto retries k deadline rest

/-- The code over a list of `handle_timeout` calls. -/
def drive (T : Nat) (t : Timers) : List (Nat × Int) → List Fired
  | [] => []
  | (now, j) :: rest => (t.handle T now j).2 :: drive T (t.handle T now j).1 rest

def seen : Fired → Seen
  | .idle => .quiet
  | .waiting => .quiet
  | .resend => .resend
  | .connectTimeout => .giveUp
  | .handshakeTimeout => .giveUp

theorem rtoNow_eq (b : Backoff) (k : Nat) (h : b.rto = b.startRto * 2 ^ k) :
    b.rtoNow = wait b.startRto k b.jitter := by
  unfold Backoff.rtoNow wait
  rw [h]
  split <;> omega

/-- States reached while waiting for an answer to a flight. -/
def Waiting (startRto retries : Nat) (t : Timers) (k deadline : Nat) : Prop :=
  t.backoff.startRto = startRto ∧ t.backoff.left + k = retries ∧
  t.backoff.rto = startRto * 2 ^ k ∧ t.flight = .armed deadline ∧ t.connect = .disabled

theorem drive_waiting (T startRto retries : Nat) (calls : List (Nat × Int)) :
    ∀ (t : Timers) (k deadline : Nat), Waiting startRto retries t k deadline →
      (drive T t calls).map seen = ideal startRto retries k deadline calls := by
  induction calls with
  | nil => intros; rfl
  | cons p rest ih =>
    intro t k deadline hw
    obtain ⟨now, j⟩ := p
    obtain ⟨h1, h2, h3, h4, h5⟩ := hw
    have harm : t.arm T now = t := by simp [Timers.arm, h4, h5]
    simp only [drive, List.map_cons, ideal]
    have hh : t.handle T now j =
        if now ≥ deadline then
          if t.backoff.canRetry then
            ({ t with backoff := t.backoff.attempt j,
                      flight := .armed (now + (t.backoff.attempt j).rtoNow) }, .resend)
          else (t, .handshakeTimeout)
        else (t, .waiting) := by
      unfold Timers.handle
      simp [harm, h4, h5, Timeout.expired]
    rw [hh]
    by_cases hnow : now < deadline
    · have hge : ¬ now ≥ deadline := by omega
      simp only [hge, if_false, hnow, if_true, seen]
      rw [ih t k deadline ⟨h1, h2, h3, h4, h5⟩]
    · have hge : now ≥ deadline := by omega
      simp only [hge, if_true, hnow, if_false, Backoff.canRetry, decide_eq_true_eq]
      by_cases hk : k < retries
      · have hl : t.backoff.left > 0 := by omega
        simp only [hl, hk, if_true, seen]
        have ha : t.backoff.attempt j =
            { t.backoff with left := t.backoff.left - 1, jitter := j, rto := t.backoff.rto * 2 } := by
          unfold Backoff.attempt; rw [if_neg (by omega)]
        have hrto : (t.backoff.attempt j).rto = (t.backoff.attempt j).startRto * 2 ^ (k + 1) := by
          rw [ha]; simp only [h3, h1, Nat.pow_succ]; rw [Nat.mul_assoc]
        have hw := rtoNow_eq _ _ hrto
        rw [hw]
        have hs : (t.backoff.attempt j).startRto = startRto := by rw [ha]; exact h1
        have hj : (t.backoff.attempt j).jitter = j := by rw [ha]
        rw [hs, hj]
        congr 1
        apply ih
        refine ⟨hs, ?_, by rw [← hs]; exact hrto, rfl, h5⟩
        simp only [ha]; omega
      · have hl : ¬ t.backoff.left > 0 := by omega
        simp only [hl, hk, if_false, seen]
        rw [ih t k deadline ⟨h1, h2, h3, h4, h5⟩]

/-- **C30.** From the start of any flight (overall deadline switched off), for every sequence of
`handle_timeout` instants and jitters, the code retransmits exactly when the ideal schedule does and
gives up exactly when it does: the first call arms the timer, waits double with each retransmission,
and after `retries` retransmissions the next expiry is an error. -/
theorem schedule_refines_ideal (T : Nat) (t : Timers) (j0 : Int) (now0 : Nat) (j : Int)
    (calls : List (Nat × Int)) (hc : t.connect = .disabled) :
    (drive T (t.begin j0) ((now0, j) :: calls)).map seen =
      .quiet :: ideal t.backoff.startRto t.backoff.retries 0
        (now0 + wait t.backoff.startRto 0 j0) calls := by
  have hrto : (t.backoff.reset j0).rtoNow = wait t.backoff.startRto 0 j0 := by
    have := rtoNow_eq (t.backoff.reset j0) 0 (by simp [Backoff.reset])
    simpa [Backoff.reset] using this
  have hpos : now0 < now0 + (t.backoff.reset j0).rtoNow := by
    unfold Backoff.rtoNow; omega
  have hh : (t.begin j0).handle T now0 j =
      ({ t.begin j0 with flight := .armed (now0 + (t.backoff.reset j0).rtoNow) }, .waiting) := by
    unfold Timers.handle Timers.arm Timers.begin
    have : ¬ now0 + (t.backoff.reset j0).rtoNow ≤ now0 := by omega
    simp [hc, this, Timeout.expired]
  simp only [drive, List.map_cons, hh, seen]
  congr 1
  apply drive_waiting
  refine ⟨rfl, by simp [Timers.begin, Backoff.reset], by simp [Timers.begin, Backoff.reset], ?_, hc⟩
  simp only [hrto]

/-- At most `retries` retransmissions follow from the ideal schedule. -/
theorem ideal_count (startRto retries : Nat) (calls : List (Nat × Int)) :
    ∀ k deadline, k ≤ retries →
      ((ideal startRto retries k deadline calls).filter (· = .resend)).length + k ≤ retries := by
  induction calls with
  | nil => intro k d h; simpa [ideal] using h
  | cons p rest ih =>
    intro k d h
    obtain ⟨now, j⟩ := p
    simp only [ideal]
    split
    · simpa using ih k d h
    split
    · rename_i hk
      have := ih (k + 1) (now + wait startRto (k + 1) j) (by omega)
      simp only [List.filter_cons, decide_true, if_true, List.length_cons]
      omega
    · simpa using ih k d h

/-- **C30 (count).** -/
theorem resends_bounded (T : Nat) (t : Timers) (j0 : Int) (now0 : Nat) (j : Int)
    (calls : List (Nat × Int)) (hc : t.connect = .disabled) :
    (((drive T (t.begin j0) ((now0, j) :: calls)).map seen).filter (· = .resend)).length
      ≤ t.backoff.retries := by
  rw [schedule_refines_ideal T t j0 now0 j calls hc]
  have := ideal_count t.backoff.startRto t.backoff.retries calls 0
    (now0 + wait t.backoff.startRto 0 j0) (by omega)
  simpa using this

/-- **C30 (with the overall deadline running).** The presence of the connect timer changes nothing
except that some calls end in its error: any retransmission the full code performs happens at or after
the armed flight deadline, with retries left. -/
theorem resend_only_after_expiry (T : Nat) (t : Timers) (now : Nat) (j : Int)
    (h : (t.handle T now j).2 = .resend) :
    ∃ f, t.flight = .armed f ∧ f ≤ now ∧ 0 < t.backoff.left ∧
      (t.handle T now j).1.backoff.left + 1 = t.backoff.left ∧
      (t.handle T now j).1.flight =
        .armed (now + (t.handle T now j).1.backoff.rtoNow) ∧
      (t.handle T now j).1.backoff.rto = t.backoff.rto * 2 := by
  have hpos : ¬ t.backoff.rtoNow = 0 := by unfold Backoff.rtoNow; omega
  cases hf : t.flight with
  | disabled =>
    exfalso
    unfold Timers.handle Timers.arm Timeout.expired at h
    simp only [hf] at h
    repeat' split at h
    all_goals simp_all
  | unarmed =>
    exfalso
    unfold Timers.handle Timers.arm Timeout.expired at h
    simp only [hf] at h
    repeat' split at h
    all_goals simp_all
    all_goals omega
  | armed f =>
    refine ⟨f, rfl, ?_⟩
    have harm : (t.arm T now).flight = .armed f ∧ (t.arm T now).backoff = t.backoff := by
      unfold Timers.arm
      by_cases hc : t.connect = .unarmed <;> simp [hc, hf]
    obtain ⟨ha1, ha2⟩ := harm
    unfold Timers.handle at h ⊢
    simp only [ha1, ha2] at h ⊢
    generalize (t.arm T now).connect.expired now = ce at h ⊢
    cases ce with
    | true => simp at h
    | false =>
      by_cases hn : now ≥ f
      · by_cases hl : t.backoff.left = 0
        · simp [hn, Backoff.canRetry, hl] at h
        · have hl' : t.backoff.left > 0 := by omega
          simp only [hn, Backoff.canRetry, hl', Backoff.attempt, hl, decide_true, if_true, if_false,
            Bool.false_eq_true]
          refine ⟨trivial, trivial, by omega, trivial, trivial⟩
      · simp [hn] at h

example : (drive 0 ((({ backoff := .new 1000000000 2 0, flight := .disabled, connect := .disabled } : Timers)).begin 0)
    [(0, 0), (999999999, 0), (1000000000, -7), (2999999992, 0), (2999999993, 5), (2999999994, 0),
     (6999999997, 0), (6999999998, 0)]).map seen =
    [.quiet, .quiet, .resend, .quiet, .resend, .quiet, .quiet, .giveUp] := by decide

/-! ## C31: overall deadline -/

/-- Operations on the timers of an engine during the handshake. -/
inductive Op where
  | begin (j : Int)
  | handle (now : Nat) (j : Int)
deriving DecidableEq, Repr

def step (T : Nat) (t : Timers) : Op → Timers
  | .begin j => t.begin j
  | .handle now j => (t.handle T now j).1

theorem step_connect (T c : Nat) (t : Timers) (op : Op) (h : t.connect = .armed c) :
    (step T t op).connect = .armed c := by
  cases op with
  | begin j => simpa [step, Timers.begin] using h
  | handle now j =>
    have harm : (t.arm T now).connect = .armed c := arm_connect_armed t T now c h
    unfold step Timers.handle
    simp only [harm]
    repeat' split
    all_goals simp_all

/-- **C31.** From the first `handle_timeout` at `t0`, whatever flights are started and whatever other
timeouts are handled in between (none of them completing the handshake), a `handle_timeout` at or after
`t0 + handshake_timeout` is an error, and before that instant the overall deadline never fires. -/
theorem deadline_enforced (T t0 now : Nat) (j0 j : Int) (t : Timers) (ops : List Op)
    (h0 : t.connect = .unarmed) :
    (((ops.foldl (step T) (t.handle T t0 j0).1).handle T now j).2 = .connectTimeout ↔ t0 + T ≤ now) := by
  have h1 : (t.handle T t0 j0).1.connect = .armed (t0 + T) := by
    have harm : (t.arm T t0).connect = .armed (t0 + T) := arm_connect_unarmed t T t0 h0
    unfold Timers.handle
    simp only [harm, Timeout.expired]
    repeat' split
    all_goals simp_all
  have h2 : ∀ (ops : List Op) (s : Timers), s.connect = .armed (t0 + T) →
      (ops.foldl (step T) s).connect = .armed (t0 + T) := by
    intro ops
    induction ops with
    | nil => intro s hs; exact hs
    | cons op ops ih => intro s hs; exact ih _ (step_connect T _ s op hs)
  have h3 := h2 ops _ h1
  generalize ops.foldl (step T) (t.handle T t0 j0).1 = s at h3
  have harm : (s.arm T now).connect = .armed (t0 + T) := arm_connect_armed s T now _ h3
  unfold Timers.handle
  simp only [harm, Timeout.expired]
  by_cases hle : t0 + T ≤ now
  · simp [hle]
  · have : ¬ now ≥ t0 + T := by omega
    simp only [this, decide_false, Bool.false_eq_true, if_false, iff_false]
    repeat' split
    all_goals simp

example : (((([.handle 5 0, .begin 3, .handle 900000000 0] : List Op).foldl (step 1000000000)
    ((Timers.new 1000000000 4 0).handle 1000000000 0 0).1).handle 1000000000 1000000000 0).2
      = .connectTimeout) := by decide

/-! ## C32 (timer part): after a successful `handle_timeout` the reported instant is in the future -/

/-- A timer that is neither unarmed nor already due. -/
def Ahead (now : Nat) : Timeout → Prop
  | .disabled => True
  | .unarmed => False
  | .armed t => now < t

theorem poll_ahead (t : Timers) (now : Nat) (hc : Ahead now t.connect) (hf : Ahead now t.flight) :
    now < t.poll now := by
  have hd : 0 < distantFuture := by decide
  obtain ⟨b, fl, co⟩ := t
  cases co <;> cases fl <;> simp_all [Timers.poll, Ahead]
  split <;> omega

theorem handle_ahead (T now : Nat) (j : Int) (t : Timers)
    (h : (t.handle T now j).2 ≠ .connectTimeout ∧ (t.handle T now j).2 ≠ .handshakeTimeout) :
    Ahead now (t.handle T now j).1.connect ∧ Ahead now (t.handle T now j).1.flight := by
  have hr : ∀ b : Backoff, now < now + b.rtoNow := by intro b; unfold Backoff.rtoNow; omega
  have hc : (t.arm T now).connect ≠ .unarmed := by
    unfold Timers.arm
    by_cases hc : t.connect = .unarmed <;> by_cases hf : t.flight = .unarmed <;> simp [hc, hf]
  have hf : (t.arm T now).flight ≠ .unarmed := by
    unfold Timers.arm
    by_cases hc : t.connect = .unarmed <;> by_cases hf : t.flight = .unarmed <;> simp [hc, hf]
  unfold Timers.handle at h ⊢
  generalize t.arm T now = s at h ⊢ hc hf
  by_cases he : s.connect.expired now = true
  · simp [he] at h
  · have hca : Ahead now s.connect := by
      cases hco : s.connect <;> simp_all [Ahead, Timeout.expired]
    simp only [he] at h ⊢
    cases hfl : s.flight with
    | disabled => simp only [Bool.false_eq_true, if_false, hfl]; exact ⟨hca, trivial⟩
    | unarmed => exact absurd hfl hf
    | armed f =>
      simp only [hfl] at h ⊢
      by_cases hn : now ≥ f
      · by_cases hcr : s.backoff.canRetry = true
        · simp only [hn, hcr, if_true, Bool.false_eq_true, if_false]; exact ⟨hca, hr _⟩
        · simp [hn, hcr] at h
      · simp only [hn, if_false, Bool.false_eq_true, hfl]
        exact ⟨hca, by simp only [Ahead]; omega⟩

/-- **C32 (DTLS 1.2, timer level).** A successful `handle_timeout(now)` leaves `poll_timeout` with an
instant later than `now`. -/
theorem poll_after_handle_future (T now : Nat) (j : Int) (t : Timers)
    (h : (t.handle T now j).2 ≠ .connectTimeout ∧ (t.handle T now j).2 ≠ .handshakeTimeout) :
    now < (t.handle T now j).1.poll now :=
  poll_ahead _ _ (handle_ahead T now j t h).1 (handle_ahead T now j t h).2

example : ((Timers.new 1000000000 4 0).handle 30000000000 7 0).1.poll 7 = 1000000007 := by decide

/-- **C32 (real deadline).** Once `handle_timeout` has armed the timers, the instant reported by
`poll_timeout` is the earliest armed deadline: no deadline is slept through, and the wake-up is for
something. -/
theorem poll_is_earliest (t : Timers) (now : Nat)
    (harmed : ∃ d, t.connect = .armed d ∨ t.flight = .armed d) :
    (∀ d, t.connect = .armed d ∨ t.flight = .armed d → t.poll now ≤ d) ∧
    (t.connect = .armed (t.poll now) ∨ t.flight = .armed (t.poll now)) := by
  obtain ⟨b, fl, co⟩ := t
  cases co <;> cases fl <;> simp_all [Timers.poll]
  refine ⟨fun d hd => ?_, ?_⟩
  · rcases hd with hd | hd <;> subst hd <;> split <;> omega
  · omega

example : ({ backoff := .new 1 1 0, flight := .armed 5, connect := .armed 9 } : Timers).poll 3 = 5 := by
  decide

end Verif.Props.Timer

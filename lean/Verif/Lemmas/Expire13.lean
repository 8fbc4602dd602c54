import Verif.Lemmas.ClockServer13
/-!
# Where the error `Timeout(Connect)` comes from
-/
namespace Verif.E13
open Verif Wire Window Timer Aead M
open Verif.E12 (Call Output Ret ApiRes toApi)

/-- `m` never fails with `Timeout(Connect)`. -/
def NoTo {σ α : Type} (m : M σ α) : Prop := ∀ s, (m s).1 ≠ .fail (.fatal .timeoutConnect)

section
variable {σ α β : Type}
theorem NoTo.pure (a : α) : NoTo (M.pure a : M σ α) := nofun
theorem NoTo.get : NoTo (M.get : M σ σ) := nofun
theorem NoTo.modify (f : σ → σ) : NoTo (M.modify f) := nofun
theorem NoTo.set (s : σ) : NoTo (M.set s) := nofun
theorem NoTo.panic : NoTo (M.panic : M σ α) := nofun
theorem NoTo.fatal {e : Error} (h : e ≠ .timeoutConnect) : NoTo (M.fatal e : M σ α) := by
  intro s g; injection g with g; injection g with g; exact h g
theorem NoTo.bind {m : M σ α} {f : α → M σ β} (h : NoTo m) (g : ∀ a, NoTo (f a)) : NoTo (M.bind m f) := by
  intro s
  unfold M.bind
  have := h s
  cases hm : m s with
  | mk r s' =>
    rw [hm] at this
    cases r with
    | ok a => exact g a s'
    | fail f => intro e; exact this (by injection e with e; exact congrArg _ e)
end

section engine
variable (env : Env)

theorem createPlain_noTo (c sv f) : NoTo (createPlain c sv f) := by
  intro s
  unfold createPlain
  split
  · nofun
  · dsimp only
    split
    · nofun
    · split <;> nofun

theorem createCipher_noTo (c ep sv f) : NoTo (createCipher env c ep sv f) := by
  intro s
  unfold createCipher
  split
  · nofun
  · unfold sealCipher
    split
    · split
      · nofun
      · dsimp only
        split
        · nofun
        · unfold queueCipher
          dsimp only
          split
          · nofun
          · split <;> nofun
    · nofun

theorem resendEntry_noTo (x) : NoTo (resendEntry env x) := by
  intro s
  unfold resendEntry
  split
  · exact NoTo.bind (createPlain_noTo _ _ _) (fun _ => .pure _) s
  · exact NoTo.bind (createCipher_noTo env _ _ _ _) (fun _ => .pure _) s

theorem resendLoop_noTo (l) : NoTo (resendLoop env l) := by
  induction l with
  | nil => exact .pure _
  | cons x l ih =>
    unfold resendLoop
    split
    · exact .bind ih fun _ => .pure _
    · exact .bind (resendEntry_noTo env x) fun _ => .bind ih fun _ => .pure _

theorem flightResend_noTo : NoTo (flightResend env) := by
  intro s
  unfold flightResend
  exact NoTo.bind (resendLoop_noTo env _) (fun _ => .modify _) _

theorem ackDuty_noTo (n) : NoTo (ackDuty env n) := by
  intro s
  unfold ackDuty flushAck
  split
  · nofun
  · split
    · nofun
    · dsimp only
      split
      · nofun
      · split
        · nofun
        · exact createCipher_noTo env _ _ _ _ _

theorem deriveEpochKeys_noTo (x) : NoTo (deriveEpochKeys env x) := by
  intro s
  unfold deriveEpochKeys
  split
  · split <;> nofun
  · nofun

theorem deriveNextSecret_noTo (x) : NoTo (deriveNextSecret env x) := by
  intro s
  unfold deriveNextSecret
  split
  · split <;> nofun
  · nofun

theorem updateRecvKeys_noTo : NoTo (updateRecvKeys env) := by
  intro s
  unfold updateRecvKeys
  split
  · nofun
  · refine NoTo.bind (deriveNextSecret_noTo env _) (fun _ => ?_) s
    split
    · exact .panic
    · exact .bind (deriveEpochKeys_noTo env _) fun _ => .modify _

theorem createKeyUpdate_noTo (r) : NoTo (createKeyUpdate env r) := by
  unfold createKeyUpdate
  refine .bind (.modify _) fun _ => .bind .get fun s => ?_
  split
  · exact .panic
  · exact .bind (.modify _) fun _ => .bind (createCipher_noTo env _ _ _ _) fun _ => .modify _

theorem sendAckInner_noTo (b) : NoTo (sendAckInner env b) := by
  intro s
  unfold sendAckInner
  split
  · nofun
  · exact createCipher_noTo env _ _ _ _ _

theorem advancePeerSeq_noTo : NoTo advancePeerSeq := by
  intro s
  unfold advancePeerSeq
  split <;> nofun

theorem nextHandshakeWith_noTo (a b t) : NoTo (nextHandshakeWith env a b t) := by
  intro s
  unfold nextHandshakeWith
  split
  · nofun
  · split
    · nofun
    · unfold defragment
      dsimp only
      split
      · nofun
      · split
        · nofun
        · split
          · nofun
          · split <;> nofun

/-- With the connect timer stopped, `handle_timeout` does not report its expiry. -/
theorem handleTimeout_noTo (n : Nat) (s : Eng) (h : s.timers.connect = .disabled) :
    (handleTimeout env n s).1 ≠ .fail (.fatal .timeoutConnect) := by
  have h1 : (s.timers.arm s.cfg.handshakeTimeout n).connect = .disabled := by rw [arm_connect, h]; rfl
  have h3 : (s.timers.handle s.cfg.handshakeTimeout n (env.jitter s.tick)).2 ≠ .connectTimeout := by
    unfold Timers.handle
    dsimp only
    rw [h1, if_neg (by exact Bool.false_ne_true)]
    split
    · split
      · split <;> nofun
      · nofun
    · nofun
  unfold handleTimeout
  generalize s.timers.handle s.cfg.handshakeTimeout n (env.jitter s.tick) = x at h3
  obtain ⟨t, f⟩ := x
  dsimp only at h3 ⊢
  cases f with
  | connectTimeout => exact absurd rfl h3
  | handshakeTimeout => nofun
  | idle => nofun
  | waiting => exact ackDuty_noTo env n _
  | resend => exact NoTo.bind (flightResend_noTo env) (fun _ => ackDuty_noTo env n) _
end engine

section session
variable {St : Type} {env : PEnv}

theorem NoTo.onEng {α : Type} {m : E α} (h : NoTo m) : NoTo (E13.onEng m : P St α) := fun s => h s.eng

theorem drainLoop_noTo (n l) : NoTo (drainLoop env n l : P St Unit) := by
  induction l with
  | nil => exact .pure _
  | cons d l ih => exact .bind (NoTo.onEng (createCipher_noTo _ _ _ _ _)) fun _ => ih

theorem awaitApplicationData_noTo (a : St) : NoTo (awaitApplicationData env a) := by
  have h1 : NoTo (autoKeyUpdate env : P St Unit) := by
    unfold autoKeyUpdate
    refine .bind .get fun s => ?_
    split
    · refine .bind (.modify _) fun _ => ?_
      split
      · exact .pure _
      · exact .onEng (createKeyUpdate_noTo _ _)
    · exact .pure _
  have h2 : NoTo (drainQueued env : P St Unit) :=
    .bind .get fun s => .bind (.set _) fun _ => drainLoop_noTo _ _
  have h3 : NoTo (respondKeyUpdate env : P St Unit) := by
    unfold respondKeyUpdate
    refine .bind .get fun s => ?_
    split
    · exact .bind (.onEng (createKeyUpdate_noTo _ _)) fun _ => .modify _
    · exact .pure _
  have h4 : NoTo (takeKeyUpdate env : P St Unit) := by
    unfold takeKeyUpdate
    refine .bind .get fun s => ?_
    split
    · refine .bind (.onEng (nextHandshakeWith_noTo _ _ _ _)) fun m => ?_
      split
      · exact .pure _
      · exact .bind (.onEng (updateRecvKeys_noTo _)) fun _ => .bind (.onEng (sendAckInner_noTo _ _)) fun _ =>
          .bind (.modify _) fun _ => .onEng advancePeerSeq_noTo
      · exact .panic
    · exact .pure _
  exact .bind h1 fun _ => .bind h2 fun _ => .bind h3 fun _ => .bind h4 fun _ => .pure _

theorem halfClosedLocal_noTo (a b : St) : NoTo (halfClosedLocal env a b) := by
  unfold halfClosedLocal
  simp only [bind_eq, pure_eq]
  refine .bind .get fun s => ?_
  split
  · refine .bind (.onEng (nextHandshakeWith_noTo _ _ _ _)) fun m => ?_
    split
    · exact .bind .get fun _ => .pure _
    · exact .bind (.onEng (updateRecvKeys_noTo _)) fun _ => .bind (.onEng advancePeerSeq_noTo) fun _ =>
        .bind .get fun _ => .pure _
    · exact .bind .panic fun _ => .bind .get fun _ => .pure _
  · exact .bind .get fun _ => .pure _
end session

theorem progress_noTo {R : Role} {env : PEnv} {over : R.St → Bool} (h1 : ∀ st, over st = true → NoTo (R.step env st))
    (h2 : ∀ st, over st = true → Gives (fun new => over new = true) (R.step env st)) (n : Nat) (s : Ses R.St)
    (h : over s.st = true) : (progress R env n s).1 ≠ .fail (.fatal .timeoutConnect) := by
  have key : wp (progress R env n) s (fun _ _ => True) (fun f _ => f ≠ .fatal .timeoutConnect) := by
    induction n generalizing s with
    | zero => exact nofun
    | succ n ih =>
      unfold E13.progress
      simp only [bind_eq, pure_eq, wp_bind, wp_get]
      refine wp_of (fun new s' he => ?_) (fun f s' he hf => h1 _ h s (by rw [he, hf]))
      have := h2 _ h s new (by rw [he])
      split
      · trivial
      · exact ih { s' with st := new } this
  unfold wp at key
  split at key
  · next he => rw [he]; nofun
  · next he => rw [he]; intro e; injection e with e; exact key e

namespace S13
variable {env : PEnv}

theorem over_noTo (st : SSt) (h : over st = true) : NoTo (S13.step env st) := by
  cases st <;> first | cases h | skip
  · exact awaitApplicationData_noTo _
  · exact halfClosedLocal_noTo _ _
  · exact .pure _

theorem over_succ (st : SSt) (h : over st = true) : Gives (fun new => over new = true) (S13.step env st) := by
  intro s new he
  have hn := S13.step_succ env st s new he
  cases st <;> first | cases h | skip
  all_goals
    simp [succ] at hn
    first
      | (rcases hn with hn | hn <;> subst hn <;> rfl)
      | (subst hn; rfl)

/-- When the handshake is over and its timer is stopped, no call reports that it timed out. -/
theorem timeout_noTo (n : Nat) (s : Ses SSt) (h : over s.st = true) (hc : s.eng.timers.connect = .disabled) :
    (call S13.role env s (.timeout n)).1 ≠ .res (.err .timeoutConnect) := by
  have key : (handleTimeoutM S13.role env n s).1 ≠ .fail (.fatal .timeoutConnect) := by
    unfold handleTimeoutM
    simp only [bind_eq]
    have e1 := (noteTime_eng (R := S13.role) n s (clock_frame env.toEnv)).2.2
    have e2 : (noteTime S13.role env n s).eng.timers.connect = .disabled :=
      Eq.trans (congrArg Prod.snd (noteTime_ck (R := S13.role) (env := env) n s)) hc
    change (M.bind (onEng (handleTimeout env.toEnv n)) (fun _ => progress S13.role env progressFuel)
      (noteTime S13.role env n s)).1 ≠ _
    generalize noteTime S13.role env n s = s1 at e1 e2
    have h1 := handleTimeout_noTo env.toEnv n s1.eng e2
    unfold M.bind
    cases hm : (onEng (handleTimeout env.toEnv n) : P S13.role.St Unit) s1 with
    | mk r s' =>
      have e3 : r = (handleTimeout env.toEnv n s1.eng).1 := (congrArg Prod.fst hm).symm
      have e4 : s'.st = s1.st := (congrArg (fun x => x.2.st) hm).symm
      rw [← e3] at h1
      cases r with
      | fail f => exact h1
      | ok u => exact progress_noTo (R := S13.role) over_noTo over_succ _ s' (by rw [e4, e1]; exact h)
  intro hr
  apply key
  have hr : toApi (handleTimeoutM S13.role env n s).1 = .err .timeoutConnect := by injection hr
  generalize (handleTimeoutM S13.role env n s).1 = r at hr
  cases r with
  | ok u => cases hr
  | fail f =>
    cases f with
    | fatal e => injection hr with hr; rw [hr]
    | _ => cases hr

end S13
end Verif.E13

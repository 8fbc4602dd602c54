import Verif.Lemmas.Saga12
/-!
# The random of a DTLS 1.2 session

Steps leave it alone, so it is drawn once; where a hello has been sent there is one.
-/
namespace Verif.E12
open Verif Wire Window Timer Aead M

abbrev rnd {St : Type} (s : Ses St) : Option Bytes := s.random

/-- Steps keep the random and the state they are in. -/
def RandomKept (R : Role) (env : PEnv) : Prop :=
  ∀ st (s : Ses R.St), (R.step env st s).2.random = s.random ∧ (R.step env st s).2.st = s.st

def rs {St : Type} (s : Ses St) : Option Bytes × St := (s.random, s.st)

theorem rs_proj {St : Type} : Proj (rs (St := St)) := fun _ _ _ => rfl

theorem rs_split {St : Type} {s s' : Ses St} (h : rs s' = rs s) : s'.random = s.random ∧ s'.st = s.st :=
  ⟨congrArg (·.1) h, congrArg (·.2) h⟩

section
variable {St : Type} {env : PEnv}

theorem rs_eng {α : Type} (m : E α) : Keeps rs (onEng m : P St α) := fun s =>
  of_wp (m := onEng m) (R := fun s' : Ses St => rs s' = rs s) (by
    rw [wp_onEng]
    exact wp_mono (to_wp (R := fun _ => True) trivial) (fun _ _ _ => rfl) (fun _ _ _ => rfl))

theorem app_rs (a c : St) : Keeps rs (awaitApplicationData env a c) := by
  have hp := rs_proj (St := St)
  have hl : ∀ l, Keeps rs (drainLoop env l : P St Unit) := by
    intro l
    induction l with
    | nil => exact .pure _
    | cons d l ih => exact .bind (.record hp _ _ _ _ _ _) fun _ => ih
  have hd : Keeps rs (drainQueued env : P St Unit) := fun s => hl s.queued { s with queued := [] }
  unfold awaitApplicationData sendCloseNotify
  simp only [bind_eq, pure_eq]
  keeps

theorem ccs_rs (a b : St) : Keeps rs (awaitChangeCipherSpec env a b) := by
  have h1 : Keeps rs (onEng (nextRecord ctCCS) : P St Bool) := rs_eng _
  have h2 : Keeps rs (onEng' dropPendingCcs : P St Unit) := fun _ => rfl
  have h3 : Keeps rs (onEng (enablePeerEncryption env.toEnv) : P St Unit) := rs_eng _
  unfold awaitChangeCipherSpec
  simp only [bind_eq, pure_eq]
  refine .bind h1 fun b => ?_
  split
  · exact .bind h2 fun _ => .bind h3 fun _ => .pure _
  · exact .pure _

end

theorem C12.step_rs (env : PEnv) (st : CSt) : Keeps rs (C12.step env st) := by
  have hp := rs_proj (St := CSt)
  have hr : Keeps rs (onEng' releaseAppData : P CSt Unit) := fun _ => rfl
  have hs : ∀ cs, Keeps rs (onEng (setCipherSuite env.toEnv cs) : P CSt Unit) := fun cs => rs_eng _
  have hx : ∀ l b, Keeps rs (C12.serverExtensions env l b) := by
    intro l
    induction l with
    | nil => exact fun _ => .pure _
    | cons x l ih =>
      obtain ⟨t, d⟩ := x
      intro b
      unfold C12.serverExtensions
      simp only [bind_eq]
      split
      · refine .bind (.orTransient _) fun ps => ?_
        split
        · exact ih _
        · exact .bind (fun _ => rfl) fun _ => ih _
      · exact ih _
  cases st
  case awaitApplicationData => exact app_rs _ _
  case awaitChangeCipherSpec => exact ccs_rs _ _
  case closed => exact .pure _
  case awaitServerHello =>
    unfold C12.step C12.awaitServerHello
    simp only [bind_eq, pure_eq]
    keeps
    all_goals first
      | exact hs _
      | exact hx _ _
  all_goals
    unfold C12.step
    first
      | (unfold C12.sendClientHello; simp only [bind_eq, pure_eq]; keeps; done)
      | (unfold C12.awaitHelloVerifyRequest; simp only [bind_eq, pure_eq]; keeps; done)
      | (unfold C12.awaitCertificate; simp only [bind_eq, pure_eq]; keeps; done)
      | (unfold C12.awaitServerKeyExchange C12.awaitServerKeyExchangePsk C12.awaitServerKeyExchangeEcdhe C12.processEcdh
         simp only [bind_eq, pure_eq]; keeps; done)
      | (unfold C12.awaitCertificateRequest; simp only [bind_eq, pure_eq]; keeps; done)
      | (unfold C12.awaitServerHelloDone; simp only [bind_eq, pure_eq]; keeps; done)
      | (unfold C12.sendCertificate; simp only [bind_eq, pure_eq]; keeps; done)
      | (unfold C12.sendClientKeyExchange C12.clientKeyExchangeBody; simp only [bind_eq, pure_eq]; keeps; done)
      | (unfold C12.sendCertificateVerify C12.certificateVerifyBody; simp only [bind_eq, pure_eq]; keeps; done)
      | (unfold C12.sendChangeCipherSpec C12.deriveKeys deriveMaster; simp only [bind_eq, pure_eq]; keeps; done)
      | (unfold C12.sendFinished; simp only [bind_eq, pure_eq]; keeps; done)
      | (unfold C12.awaitNewSessionTicket; simp only [bind_eq, pure_eq]; keeps; done)
      | (unfold C12.awaitFinished announceConnected; simp only [bind_eq, pure_eq]; keeps; done)

theorem S12.step_rs (env : PEnv) (st : SSt) : Keeps rs (S12.step env st) := by
  have hp := rs_proj (St := SSt)
  have hr : Keeps rs (onEng' releaseAppData : P SSt Unit) := fun _ => rfl
  have hv : Keeps rs (onEng' resetServerForHvr : P SSt Unit) := fun _ => rfl
  have hs : ∀ cs, Keeps rs (onEng (setCipherSuite env.toEnv cs) : P SSt Unit) := fun cs => rs_eng _
  have hx : ∀ l x, Keeps rs (S12.clientExtensions env l x) := fun l x s =>
    of_wp (m := S12.clientExtensions env l x) (R := fun s' : Ses SSt => rs s' = rs s) (by
      induction l generalizing x with
      | nil => exact rfl
      | cons a rest ih =>
        obtain ⟨t, d⟩ := a
        unfold S12.clientExtensions
        simp only [bind_eq]
        repeat' split
        all_goals first
          | exact ih _
          | (rw [wp_bind]; exact wp_orTransient_of (fun _ _ => ih _) rfl))
  cases st
  case awaitApplicationData => exact app_rs _ _
  case awaitChangeCipherSpec => exact ccs_rs _ _
  case closed => exact .pure _
  case awaitClientHello =>
    unfold S12.step S12.awaitClientHello S12.acceptClientHello S12.sendHelloVerify
    simp only [bind_eq, pure_eq]
    keeps
    all_goals first
      | exact hs _
      | exact hx _ _
  all_goals
    unfold S12.step
    first
      | (unfold S12.sendServerHello; simp only [bind_eq, pure_eq]; keeps; done)
      | (unfold S12.sendCertificate; simp only [bind_eq, pure_eq]; keeps; done)
      | (unfold S12.sendServerKeyExchange S12.sendServerKeyExchangePsk S12.sendServerKeyExchangeEcdhe
           S12.serverKeyExchangeBody
         simp only [bind_eq, pure_eq]; keeps; done)
      | (unfold S12.sendCertificateRequest; simp only [bind_eq, pure_eq]; keeps; done)
      | (unfold S12.sendServerHelloDone; simp only [bind_eq, pure_eq]; keeps; done)
      | (unfold S12.awaitCertificate; simp only [bind_eq, pure_eq]; keeps; done)
      | (unfold S12.awaitClientKeyExchange S12.clientKxPsk S12.clientKxEcdh S12.finishClientKx deriveMaster
         simp only [bind_eq, pure_eq]; keeps; done)
      | (unfold S12.awaitCertificateVerify; simp only [bind_eq, pure_eq]; keeps; done)
      | (unfold S12.awaitFinished; simp only [bind_eq, pure_eq]; keeps; done)
      | (unfold S12.sendChangeCipherSpec; simp only [bind_eq, pure_eq]; keeps; done)
      | (unfold S12.sendFinished announceConnected; simp only [bind_eq, pure_eq]; keeps; done)

theorem C12.randomKept (env : PEnv) : RandomKept C12.role env := fun st s => rs_split (C12.step_rs env st s)

theorem S12.randomKept (env : PEnv) : RandomKept S12.role env := fun st s => rs_split (S12.step_rs env st s)

/-! ## Invariants -/

/-- What only depends on random and state. -/
theorem random_stable {R : Role} {env : PEnv} (hk : RandomKept R env) (I : Option Bytes → R.St → Prop)
    (hn : ∀ n st, I none st → I (some (env.rand n 32)) st) (hc : ∀ r st, I r st → I r R.closed)
    (hs : ∀ (s : Ses R.St), I s.random s.st →
      wp (R.step env s.st) s (fun new _ => I s.random new) (fun _ _ => True)) :
    Stable R env (fun _ => True) (fun s => I s.random s.st) where
  packet s p h := h
  note s n h := by
    unfold noteTime
    split
    · exact h
    · rename_i he
      rw [he] at h
      exact hn _ _ h
  timeout s n h := h
  step s h := by
    refine wp_mono (wp_and (hs s h) (to_wp (m := R.step env s.st) (s := s)
      (R := fun s' => s'.random = s.random ∧ s'.st = s.st) (hk _ _))) ?_ ?_
    · rintro new s' ⟨g1, g2, g3⟩
      exact ⟨g3, by show I s'.random new; rw [g2]; exact g1⟩
    · rintro _ s' ⟨_, g2, g3⟩
      rw [g2, g3]; exact h
  send s d _ h := by
    apply of_wp (m := sendM R env d) (R := fun s' : Ses R.St => I s'.random s'.st)
    unfold sendM
    simp only [bind_eq, wp_bind, wp_get]
    split
    · exact h
    · split
      · exact h
      · rw [wp_state]; exact h
  close s h := by
    apply of_wp (m := closeM R env) (R := fun s' : Ses R.St => I s'.random s'.st)
    unfold closeM sendCloseNotify
    simp only [bind_eq, pure_eq, wp_bind, wp_get]
    split
    · exact h
    · split
      · simp only [wp_bind, wp_onEng', wp_modify]
        exact hc _ _ h
      · simp only [wp_bind, wp_modify, wp_onEng]
        refine wp_mono (to_wp (R := fun _ => True) trivial) ?_ ?_
        · intro _ e _
          exact hc _ _ h
        · intro _ e _
          exact h
  poll s n h := by
    unfold pollM
    split <;> exact h

/-- A random has its 32 bytes. -/
def RandomLong (r : Option Bytes) : Prop := ∀ x, r = some x → x.length = 32

theorem random_long {R : Role} {env : PEnv} (hk : RandomKept R env) (hr : ∀ n, (env.rand n 32).length = 32) :
    Stable R env (fun _ => True) (fun s => RandomLong s.random) :=
  random_stable hk (fun r _ => RandomLong r) (fun n _ _ x hx => by cases hx; exact hr n) (fun _ _ h => h)
    (fun s h => wp_mono (to_wp (m := R.step env s.st) (s := s) (R := fun _ => True) trivial) (fun _ _ _ => h) (fun _ _ _ => trivial))

/-- There is a random, in states with a hello of ours behind them. -/
def ClientDrawn (r : Option Bytes) (st : CSt) : Prop := st = .sendClientHello ∨ st = .closed ∨ r ≠ none

def ServerDrawn (r : Option Bytes) (st : SSt) : Prop :=
  st = .awaitClientHello ∨ st = .sendServerHello ∨ st = .closed ∨ r ≠ none

theorem client_drawn (env : PEnv) : Stable C12.role env (fun _ => True) (fun s => ClientDrawn s.random s.st) := by
  refine random_stable (C12.randomKept env) ClientDrawn (fun _ _ _ => .inr (.inr nofun)) (fun _ _ _ => .inr (.inl rfl))
    (?_ : ∀ s : Ses CSt, ClientDrawn s.random s.st → wp (C12.step env s.st) s (fun new _ => ClientDrawn s.random new)
      (fun _ _ => True))
  intro s h
  rcases h with h | h | h
  · rw [h]
    show wp (C12.sendClientHello env) s _ _
    unfold C12.sendClientHello
    simp only [bind_eq, pure_eq, wp_bind, wp_get]
    refine wp_orPanic_of (fun r hr => ?_) trivial
    refine wp_mono (to_wp (R := fun _ => True) trivial) (fun _ s' _ => ?_) (fun _ _ _ => trivial)
    refine wp_mono (to_wp (R := fun _ => True) trivial) (fun _ s' _ => ?_) (fun _ _ _ => trivial)
    rw [wp_pure]
    exact .inr (.inr (by rw [hr]; nofun))
  · rw [h]
    exact .inr (.inl rfl)
  · exact wp_mono (to_wp (R := fun _ => True) trivial) (fun _ _ _ => .inr (.inr h)) (fun _ _ _ => trivial)

theorem server_drawn (env : PEnv) : Stable S12.role env (fun _ => True) (fun s => ServerDrawn s.random s.st) := by
  refine random_stable (S12.randomKept env) ServerDrawn (fun _ _ _ => .inr (.inr (.inr nofun)))
    (fun _ _ _ => .inr (.inr (.inl rfl))) 
    (?_ : ∀ s : Ses SSt, ServerDrawn s.random s.st → wp (S12.step env s.st) s (fun new _ => ServerDrawn s.random new)
      (fun _ _ => True))
  intro s h
  rcases h with h | h | h | h
  · rw [h]
    refine wp_mono (Rets.wp (S12.step_next (env := env) .awaitClientHello) s) (fun new _ hn => ?_) (fun _ _ _ => trivial)
    simp only [S12.next, List.mem_cons, List.not_mem_nil, or_false] at hn
    rcases hn with rfl | rfl
    · exact .inl rfl
    · exact .inr (.inl rfl)
  · rw [h]
    show wp (S12.sendServerHello env) s _ _
    unfold S12.sendServerHello
    simp only [bind_eq, pure_eq, wp_bind, wp_get, wp_onEng']
    refine wp_orPanic_of (fun r hr => ?_) trivial
    have hr : s.random = some r := hr
    refine wp_orFatal_of (fun cs hcs => ?_) trivial
    refine wp_mono (to_wp (R := fun _ => True) trivial) (fun _ s' _ => ?_) (fun _ _ _ => trivial)
    exact .inr (.inr (.inr (by rw [hr]; nofun)))
  · rw [h]
    exact .inr (.inr (.inl rfl))
  · exact wp_mono (to_wp (R := fun _ => True) trivial) (fun _ _ _ => .inr (.inr (.inr h))) (fun _ _ _ => trivial)

end Verif.E12

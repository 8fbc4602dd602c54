import Verif.Lemmas.Recv13
import Verif.Lemmas.Hist12
/-!
# Histories of a DTLS 1.3 session: outputs and the log
-/
namespace Verif.E13
open Verif Wire Window Timer Aead M
open Verif.E12 (insertAt Call outputs outputs_append)

/-- The application data among the outputs, in order. -/
def appData (os : List Output) : List Bytes :=
  os.filterMap fun
    | .eng (.appData b) => some b
    | _ => none

theorem appData_append (a b : List Output) : appData (a ++ b) = appData a ++ appData b :=
  List.filterMap_append ..

theorem mem_appData {os : List Output} {b : Bytes} : b ∈ appData os ↔ .eng (.appData b) ∈ os := by
  constructor
  · intro h
    obtain ⟨o, h1, h2⟩ := List.mem_filterMap.mp h
    cases o with
    | eng o => cases o <;> cases h2; exact h1
    | _ => cases h2
  · exact fun h => List.mem_filterMap.mpr ⟨_, h, rfl⟩

/-- The records delivered, the last one first. -/
def delivered : List Ev → List (Rec13 × Bool)
  | [] => []
  | .delivered r o :: l => (r, o) :: delivered l
  | _ :: l => delivered l

theorem mem_delivered {l : List Ev} {r : Rec13} {o : Bool} : (r, o) ∈ delivered l ↔ Ev.delivered r o ∈ l := by
  induction l with
  | nil => simp [delivered]
  | cons e l ih => cases e <;> simp [delivered, ih]

theorem delivered_isRx (l : List Ev) : delivered (l.filter Ev.isRx) = delivered l := by
  induction l with
  | nil => rfl
  | cons e l ih =>
    rw [List.filter_cons]
    cases e <;> simp [delivered, Ev.isRx, ih]

theorem delivered_append (a b : List Ev) : delivered (a ++ b) = delivered a ++ delivered b := by
  induction a with
  | nil => rfl
  | cons e a ih => cases e <;> simp [delivered, ih]

/-! ## Executions -/

theorem run_fst {R : Role} (env : PEnv) (s : Ses R.St) (c : Call) (cs : List Call) :
    (run R env s (c :: cs)).1 =
      if Stops (call R env s c).1 then [(call R env s c).1] else
        (call R env s c).1 :: (run R env (call R env s c).2 cs).1 := by
  conv => lhs; unfold run
  dsimp only
  by_cases h : Stops (call R env s c).1
  · rw [if_pos h]; exact congrArg Prod.fst (if_pos h)
  · rw [if_neg h]
    split
    · rename_i hh; exact absurd hh h
    · rfl

/-- What calls and polls keep of outputs so far and the session. -/
theorem run_hist {R : Role} {env : PEnv} {P : List Output → Ses R.St → Prop}
    (hn : ∀ os s c, (∀ n, c ≠ .poll n) → P os s → P os (call R env s c).2)
    (hp : ∀ os s n, P os s → P (os ++ [(pollM R n s).1]) (pollM R n s).2) (cs : List Call) (os : List Output)
    (s : Ses R.St) (h : P os s) : P (os ++ outputs (run R env s cs).1) (run R env s cs).2 := by
  induction cs generalizing os s with
  | nil => simpa [run, outputs] using h
  | cons c cs ih =>
    have h1 : P (os ++ outputs [(call R env s c).1]) (call R env s c).2 := by
      cases c with
      | poll n => exact hp os s n h
      | packet p => simpa [call, outputs] using hn os s (.packet p) (fun _ => nofun) h
      | timeout n => simpa [call, outputs] using hn os s (.timeout n) (fun _ => nofun) h
      | send d => simpa [call, outputs] using hn os s (.send d) (fun _ => nofun) h
      | close => simpa [call, outputs] using hn os s .close (fun _ => nofun) h
    rw [run_fst, run_snd]
    split
    · exact h1
    · have := ih _ _ h1
      rw [List.append_assoc, ← outputs_append] at this
      exact this

/-- Calls other than polls make small steps only. -/
theorem call_rx {R : Role} {env : PEnv} {keying} (hr : RoleOk R env keying) (s : Ses R.St) (c : Call)
    (hc : ∀ n, c ≠ .poll n) : RMove env.toEnv true false s.eng (call R env s c).2.eng :=
  (call_afr (ok := fun _ => True) hr (rx_frame env.toEnv true) (rx_keyFrame _)
    (rx_appFrame _ _ _) (rx_apiFrame _ _ _) s (fun _ _ => trivial) c
    (fun n hn => absurd hn (hc n)) (fun _ _ => trivial)).1

/-- What calls other than polls leave alone. -/
theorem quiet_move {env : Env} {keys : Bool} {s s' : Eng} (h : RMove env keys false s s') :
    delivered s'.log = delivered s.log ∧ s'.closeReported = s.closeReported := by
  refine RSteps.keeps (P := fun e _ => delivered e.log = delivered s.log ∧ e.closeReported = s.closeReported) ?_ h
    ⟨rfl, rfl⟩
  intro a b ha hb g h
  cases g with
  | other g =>
    refine ⟨?_, (congrArg RxPart.closeReported g).trans h.2⟩
    rw [← delivered_isRx, show b.log.filter Ev.isRx = a.log.filter Ev.isRx from congrArg RxPart.log g, delivered_isRx]
    exact h.1
  | noted ho =>
    obtain ⟨_, _, _, _, _, _, _, _, e1, e2⟩ := openedSt_same a _ _ _ _ _ _
    rw [e1, e2]; exact h
  | opened ho hr =>
    obtain ⟨_, _, _, _, _, _, _, _, e1, e2⟩ := openedSt_same a _ _ _ _ _ _
    rw [e1, e2]; exact h
  | purge hp => cases hp
  | deliver hp => cases hp
  | reported hp => cases hp
  | _ => exact h

/-- Outputs so far against the log. -/
structure Shown (os : List Output) (s : Eng) : Prop where
  data : appData os = (delivered s.log).reverse.map (·.1.fragment)
  close : os.count (.eng .closeNotify) = if s.closeReported then 1 else 0

theorem Shown.quiet {os : List Output} {s s' : Eng} (h : Shown os s) (h1 : delivered s'.log = delivered s.log)
    (h2 : s'.closeReported = s.closeReported) : Shown os s' := ⟨by rw [h1]; exact h.data, by rw [h2]; exact h.close⟩

theorem scheduleAck_shown (n : Nat) (s : Eng) : (scheduleAck n s).log = s.log ∧
    (scheduleAck n s).closeReported = s.closeReported := by
  unfold scheduleAck
  repeat' split
  all_goals exact ⟨rfl, rfl⟩

theorem Shown.other {os : List Output} {s : Eng} (h : Shown os s) (o : Output) (h1 : ∀ b, o ≠ .eng (.appData b))
    (h2 : o ≠ .eng .closeNotify) : Shown (os ++ [o]) s := by
  refine ⟨?_, ?_⟩
  · rw [appData_append, ← h.data]
    have : appData [o] = [] := by
      refine List.eq_nil_iff_forall_not_mem.mpr fun b hb => ?_
      have := mem_appData.mp hb
      simp only [List.mem_singleton] at this
      exact h1 b this.symm
    rw [this, List.append_nil]
  · have : ([o] : List Output).count (.eng .closeNotify) = 0 := by
      rw [List.count_eq_zero]
      simpa using fun h => h2 h.symm
    rw [List.count_append, this]
    exact h.close

theorem pollRest_shown (b n : Nat) {os : List Output} {s : Eng} (h : Shown os s) :
    Shown (os ++ [.eng (pollRest b n s).1]) (pollRest b n s).2 := by
  unfold pollRest
  dsimp only
  obtain ⟨e1, e2⟩ := scheduleAck_shown n s
  have h := h.quiet (s' := scheduleAck n s) (by rw [e1]) e2
  generalize scheduleAck n s = s at h
  split
  · split
    · exact h.other _ (fun _ => nofun) nofun
    · exact Shown.quiet (h.other (.eng (.packet _)) (fun _ => nofun) nofun) rfl rfl
  · split
    · rename_i hc
      rw [Bool.and_eq_true, Bool.not_eq_true'] at hc
      refine ⟨?_, ?_⟩
      · rw [appData_append, h.data]
        exact List.append_nil _
      · rw [List.count_append, h.close, hc.2]
        rfl
    · exact h.other _ (fun _ => nofun) nofun

theorem pollOutput_shown (b n : Nat) {os : List Output} {s : Eng} (h : Shown os s) :
    Shown (os ++ [.eng (pollOutput b n s).1]) (pollOutput b n s).2 := by
  unfold pollOutput
  dsimp only
  have h : Shown os (purge s) := h.quiet rfl rfl
  generalize purge s = s at h
  split
  · split
    · split
      · exact h.other _ (fun _ => nofun) nofun
      · refine ⟨?_, ?_⟩
        · rw [appData_append, h.data]
          simp [delivered, appData]
        · rw [List.count_append, h.close]
          simp
    · exact pollRest_shown b n h
  · exact pollRest_shown b n h

theorem pollM_shown {R : Role} (n : Nat) {os : List Output} {s : Ses R.St} (h : Shown os s.eng) :
    Shown (os ++ [(pollM R n s).1]) (pollM R n s).2.eng := by
  unfold pollM
  split
  · refine h.other _ ?_ ?_
    · intro b; unfold E12.eventOutput; repeat' split
      all_goals nofun
    · unfold E12.eventOutput; repeat' split
      all_goals nofun
  · exact pollOutput_shown _ _ h

variable {env : PEnv} {cfg : Cfg} {R : Role} {s0 : Ses R.St}

/-- The outputs of a session against its log. -/
theorem Start.shown (h : Start env cfg R s0) (cs : List Call) :
    Shown (outputs (run R env s0 cs).1) (run R env s0 cs).2.eng := by
  obtain ⟨keying, hr⟩ := h.roleOk
  have := run_hist (R := R) (env := env) (P := fun os s => Shown os s.eng)
    (fun os s c hc hs => hs.quiet (quiet_move (call_rx hr s c hc)).1 (quiet_move (call_rx hr s c hc)).2)
    (fun os s n hs => pollM_shown n hs) cs [] s0
    ⟨by rw [h.saved0.2.2.1]; rfl, by rw [show s0.eng.closeReported = false from congrArg RxPart.closeReported h.rp0]; rfl⟩
  exact this

end Verif.E13

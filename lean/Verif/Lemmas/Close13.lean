import Verif.Lemmas.Order13
import Verif.Props.Wire
/-!
# Close alerts of a DTLS 1.3 session
-/
namespace Verif.E13
open Verif Wire Window Timer Aead M
open Verif.E12 (insertAt Call outputs outputs_append)

/-! ## What a record says about itself -/

theorem parse13_kind {b rest : Bytes} {r : Rec13} (h : parse13 b = .ok rest r) :
    (isCiphertextHeader (flagsOf b) = false ∧ r.epoch = 0 ∧ r.ctype ≠ ctAppData) ∨
    (isCiphertextHeader (flagsOf b) = true ∧ r.epoch < 4 ∧ r.ctype = ctAppData) := by
  obtain ⟨_, ⟨ver, _, hc, he, _, _, hb⟩ | ⟨fl, hf, _, hc, he, hb, _⟩⟩ := Props.Wire.parse13_exact b rest r h
  · refine .inl ⟨?_, he, ?_⟩
    · rw [hb]; unfold flagsOf
      show isCiphertextHeader r.ctype = false
      rcases hc with hc | hc | hc <;> rw [hc] <;> decide
    · rcases hc with hc | hc | hc <;> rw [hc] <;> decide
  · refine .inr ⟨by rw [hb]; exact hf, ?_, hc⟩
    rw [he]
    unfold epochBits
    have : (fl &&& 3).toNat < 4 := by
      rw [UInt8.toNat_and]
      exact Nat.lt_of_le_of_lt Nat.and_le_right (by decide)
    exact this

/-! ## Where a close alert comes from -/

/-- A close alert was opened. -/
def CloseOpened (log : List Ev) (c : Nat × Nat) : Prop :=
  ∃ k nonce aad cipher plain fragment, Ev.opened k nonce aad cipher plain c.1 c.2 ∈ log ∧
    recoverInner plain = some (ctAlert, fragment) ∧ fragment[1]? = some 0

/-- The close alert noted was opened, or was not protected. -/
structure CloseInv (env : Env) (s : Eng) (h : Hand) : Prop where
  prov : Prov env s h
  close : ∀ c, s.closeSeq = some c → c.1 = 0 ∨ CloseOpened s.log c
  reported : s.closeReported = true → s.closeSeq.isSome = true

theorem CloseOpened.mono {l l' : List Ev} {c : Nat × Nat} (h : CloseOpened l c)
    (hl : ∀ e ∈ l.filter Ev.isRx, e ∈ l'.filter Ev.isRx) : CloseOpened l' c := by
  obtain ⟨k, n, a, ci, p, f, h1, h2⟩ := h
  exact ⟨k, n, a, ci, p, f, isRx_opened hl _ h1 rfl, h2⟩

theorem CloseInv.step {env : Env} {keys poll : Bool} {s s' : Eng} {a a' : Hand}
    (g : RStep env keys poll (s, a) (s', a')) (hj : poll = true → s.release = true → s.peerEnc = true)
    (h : CloseInv env s a) : CloseInv env s' a' := by
  have hp := h.prov.step g.q hj
  have same : s'.closeSeq = s.closeSeq → s'.closeReported = s.closeReported →
      (∀ e ∈ s.log.filter Ev.isRx, e ∈ s'.log.filter Ev.isRx) → CloseInv env s' a' := by
    intro h1 h2 h3
    refine ⟨hp, ?_, ?_⟩
    · rw [h1]
      exact fun c hc => (h.close c hc).imp id fun x => x.mono h3
    · rw [h1, h2]; exact h.reported
  have more : ∀ (e : Ev), e.isRx = true → ∀ x ∈ s.log.filter Ev.isRx, x ∈ (e :: s.log).filter Ev.isRx := by
    intro e he x hx
    rw [List.filter_cons_of_pos he]
    exact List.mem_cons_of_mem _ hx
  cases g with
  | other g =>
    refine same (congrArg RxPart.closeSeq g) (congrArg RxPart.closeReported g) ?_
    rw [show s'.log.filter Ev.isRx = s.log.filter Ev.isRx from congrArg RxPart.log g]
    exact fun _ h => h
  | noted ho =>
    obtain ⟨_, _, e1, _, _, _, _, _, e2, e3⟩ := openedSt_same s _ _ _ _ _ _
    exact same e1 e2 (by rw [e3]; exact more _ rfl)
  | opened ho hr =>
    obtain ⟨_, _, e1, _, _, _, _, _, e2, e3⟩ := openedSt_same s _ _ _ _ _ _
    exact same e1 e2 (by rw [e3]; exact more _ rfl)
  | @close _ c l r hr hc h0 ha hf =>
    refine ⟨hp, ?_, fun _ => rfl⟩
    intro c' hc'
    have hc' : s.closeSeq.getD (r.rcd.epoch, r.rcd.seq) = c' := Option.some.inj hc'
    cases hs : s.closeSeq with
    | some x => rw [hs] at hc'; exact h.close c' (by rw [hs]; exact congrArg some hc')
    | none =>
      rw [hs] at hc'
      have hc' : (r.rcd.epoch, r.rcd.seq) = c' := hc'
      subst hc'
      have hh := h.prov.held r (by simp [recs, Hand.recs, hr])
      cases ho : r.opened with
      | true =>
        obtain ⟨k, n, a, ci, p, h1, h2⟩ := hh.opened ho
        exact .inr ⟨k, n, a, ci, p, r.rcd.fragment, h1, by rw [← hc]; exact h2, hf⟩
      | false =>
        obtain ⟨_, ⟨rest, h2⟩, _⟩ := hh.clear ho
        rcases parse13_kind h2 with ⟨_, h3, _⟩ | ⟨_, _, h3⟩
        · exact .inl h3
        · rw [hc] at h3; exact absurd h3 (by decide)
  | taken ht => exact same rfl rfl (more _ rfl)
  | accepted => exact same rfl rfl (more _ rfl)
  | deliver => exact same rfl rfl (more _ rfl)
  | reported _ h1 _ => exact ⟨hp, h.close, fun _ => h1⟩
  | _ => exact same rfl rfl (fun _ h => h)

/-! ## What is delivered after a close alert -/

/-- Application data waiting. -/
def Waiting (s : Eng) (r : Rec13) : Prop :=
  ∃ x ∈ s.rx.flatten, x.rcd.ctype = ctAppData ∧ x.isHandled = false ∧ x.rcd = r

/-- The close alert is `c`; data waiting and delivered since `log` is in `A` or not after `c`. -/
structure Ended (c : Nat × Nat) (A : Rec13 → Prop) (old : List (Rec13 × Bool)) (s : Eng) (h : Hand) : Prop where
  close : s.closeSeq = some c
  hand : ∀ c' l, h = .busy c' l → c' = some c
  wait : ∀ r, Waiting s r → A r ∨ seqGt (r.epoch, r.seq) c = false
  log : ∃ new, delivered s.log = new ++ old ∧ ∀ x ∈ new, A x.1 ∨ seqGt (x.1.epoch, x.1.seq) c = false

theorem waiting_fewer {s s' : Eng} (h : Fewer s.rx.flatten s'.rx.flatten) {r : Rec13} (hw : Waiting s' r) :
    Waiting s r := by
  obtain ⟨x, hx, h1, h2, h3⟩ := hw
  obtain ⟨y, hy, m⟩ := h.mem hx
  refine ⟨y, hy, by rw [← m.rcd]; exact h1, ?_, by rw [← m.rcd]; exact h3⟩
  cases hh : y.isHandled with
  | false => rfl
  | true => rw [m.handled hh] at h2; cases h2

theorem Ended.step {env : Env} {keys poll : Bool} {c : Nat × Nat} {A : Rec13 → Prop} {old : List (Rec13 × Bool)}
    {s s' : Eng} {a a' : Hand} (g : RStep env keys poll (s, a) (s', a')) (h : Ended c A old s a) :
    Ended c A old s' a' := by
  have same : s'.closeSeq = s.closeSeq → Fewer s.rx.flatten s'.rx.flatten → delivered s'.log = delivered s.log →
      (∀ c' l, a' = .busy c' l → c' = some c) → Ended c A old s' a' := by
    intro h1 h2 h3 h4
    exact ⟨h1.trans h.close, h4, fun r hr => h.wait r (waiting_fewer h2 hr), by rw [h3]; exact h.log⟩
  have put : s'.closeSeq = s.closeSeq → delivered s'.log = delivered s.log → ∀ c' l, a = .busy c' l → a' = .idle →
      Less (s.rx.flatten ++ l) s'.rx.flatten → (∀ r ∈ l, Kept c' r) → Ended c A old s' a' := by
    intro h1 h2 c' l ha ha' hl hk
    have hc := h.hand c' l ha
    subst ha'
    refine ⟨h1.trans h.close, nofun, ?_, by rw [h2]; exact h.log⟩
    intro r ⟨x, hx, g1, g2, g3⟩
    obtain ⟨y, hy, m⟩ := hl.mem hx
    rcases List.mem_append.mp hy with hy | hy
    · refine h.wait r ⟨y, hy, by rw [← m.rcd]; exact g1, ?_, by rw [← m.rcd]; exact g3⟩
      cases hh : y.isHandled with
      | false => rfl
      | true => rw [m.handled hh] at g2; cases g2
    · refine .inr ?_
      have := (hk y hy).1 c hc
      rw [← g3, m.rcd]; exact this
  have hand := h.hand
  cases g with
  | other g =>
    refine same (congrArg RxPart.closeSeq g) ?_ ?_ hand
    · rw [show s'.rx = s.rx from congrArg RxPart.rx g]; exact .refl _
    · rw [← delivered_isRx, show s'.log.filter Ev.isRx = s.log.filter Ev.isRx from congrArg RxPart.log g, delivered_isRx]
  | arrive => exact same rfl (.refl _) rfl (by intro c' l he; cases he; exact h.close)
  | noted ho =>
    obtain ⟨e0, _, e1, _, _, _, _, _, _, e3⟩ := openedSt_same s _ _ _ _ _ _
    exact same e1 (by rw [e0]; exact .refl _) (by rw [e3]; rfl) hand
  | opened ho hr =>
    obtain ⟨e0, _, e1, _, _, _, _, _, _, e3⟩ := openedSt_same s _ _ _ _ _ _
    refine same e1 (by rw [e0]; exact .refl _) (by rw [e3]; rfl) ?_
    intro c' l he; cases he; exact hand _ _ rfl
  | plain => exact same rfl (.refl _) rfl (by intro c' l he; cases he; exact hand _ _ rfl)
  | drop => exact same rfl (.refl _) rfl (by intro c' l he; cases he; exact hand _ _ rfl)
  | close => exact same (by rw [h.close]; rfl) (.refl _) rfl hand
  | done => exact same rfl (.refl _) rfl nofun
  | insert i hn hl ho hk =>
    exact put rfl rfl _ _ rfl rfl ⟨_, insertAt_flatten_perm s.rx i _, .refl _⟩ hk
  | replace hn hi hr hl ho hk => exact put rfl rfl _ _ rfl rfl (set_flatten_fewer ..) hk
  | enable i _ _ _ => exact same rfl (.of_sublist (flatten_sublist (List.take_sublist ..))) rfl nofun
  | marked _ => exact same rfl (markQueue_fewer ..) rfl nofun
  | taken _ => exact same rfl (markQueue_fewer ..) rfl nofun
  | retry _ => exact same rfl (.of_sublist (flatten_sublist List.filter_sublist)) rfl nofun
  | purge _ => exact same rfl (.of_sublist (flatten_sublist (List.dropWhile_sublist _))) rfl nofun
  | deliver _ _ hn =>
    obtain ⟨x, y, h1, h2, h3, h4, _⟩ := nextApp_split hn
    refine ⟨h.close, nofun, ?_, ?_⟩
    · intro r hr
      refine h.wait r (waiting_fewer ?_ hr)
      show Fewer _ (markApp s.rx).flatten
      rw [h1, h2]
      exact (Fewer.refl _).append (.keep (mark_handled _) (.refl _))
    · obtain ⟨new, g1, g2⟩ := h.log
      refine ⟨(_, _) :: new, congrArg (_ :: ·) g1, ?_⟩
      intro z hz
      rcases List.mem_cons.mp hz with rfl | hz
      · exact h.wait _ ⟨_, by rw [h1]; simp, h3, h4, rfl⟩
      · exact g2 z hz
  | _ => exact same rfl (.refl _) rfl hand

variable {env : PEnv} {cfg : Cfg} {R : Role} {s0 : Ses R.St}

theorem Start.closeInv (h : Start env cfg R s0) (cs : List Call) :
    CloseInv env.toEnv (run R env s0 cs).2.eng .idle := by
  have hr : s0.eng.closeSeq = none := congrArg RxPart.closeSeq h.rp0
  have hl : s0.eng.closeReported = false := congrArg RxPart.closeReported h.rp0
  refine h.rxJ (J := fun e => e.release = true → e.peerEnc = true) (P := CloseInv env.toEnv) h.released
    (fun s s' a a' g p => p.step g nofun) (fun s s' a a' g hj p => ⟨?_, p.step g (fun _ => hj)⟩)
    ⟨h.prov [], by rw [hr]; nofun, by rw [hl]; nofun⟩ cs
  have same : s'.release = s.release → s'.peerEnc = s.peerEnc → s'.release = true → s'.peerEnc = true := by
    intro h1 h2; rw [h1, h2]; exact hj
  cases g with
  | other g => exact same (congrArg RxPart.release g) (congrArg RxPart.peerEnc g)
  | noted ho => exact same (openedSt_same ..).2.2.2.1 (openedSt_same ..).2.1
  | opened ho hr => exact same (openedSt_same ..).2.2.2.1 (openedSt_same ..).2.1
  | enable i _ hk => cases hk
  | release _ hk => cases hk
  | retain _ hk => cases hk
  | _ => exact same rfl rfl

/-- Executions in two parts. -/
theorem run_append (R : Role) (env : PEnv) (s : Ses R.St) (cs cs' : List Call) :
    run R env s (cs ++ cs') = run R env s cs ∨
    run R env s (cs ++ cs') = ((run R env s cs).1 ++ (run R env (run R env s cs).2 cs').1,
      (run R env (run R env s cs).2 cs').2) := by
  induction cs generalizing s with
  | nil => exact .inr rfl
  | cons c cs ih =>
    have e : ∀ l, run R env s (c :: l) = if Stops (call R env s c).1 then ([(call R env s c).1], (call R env s c).2)
        else ((call R env s c).1 :: (run R env (call R env s c).2 l).1, (run R env (call R env s c).2 l).2) := by
      intro l
      refine Prod.ext ?_ ?_
      · rw [run_fst]; split <;> rfl
      · rw [run_snd]; split <;> rfl
    rw [List.cons_append, e, e]
    by_cases hs : Stops (call R env s c).1
    · simp only [if_pos hs]; exact .inl trivial
    · simp only [if_neg hs]
      rcases ih (call R env s c).2 with g | g
      · rw [g]; exact .inl rfl
      · rw [g]; exact .inr rfl

/-- After a close alert was noted. -/
theorem Start.ended (h : Start env cfg R s0) (cs cs' : List Call) {c : Nat × Nat}
    (hc : (run R env s0 cs).2.eng.closeSeq = some c) :
    Ended c (Waiting (run R env s0 cs).2.eng) (delivered (run R env s0 cs).2.eng.log)
      (run R env s0 (cs ++ cs')).2.eng .idle := by
  obtain ⟨keying, hr⟩ := h.roleOk
  have h0 : Ended c (Waiting (run R env s0 cs).2.eng) (delivered (run R env s0 cs).2.eng.log)
      (run R env s0 cs).2.eng .idle := ⟨hc, nofun, fun r hr => .inl hr, [], rfl, nofun⟩
  generalize Waiting (run R env s0 cs).2.eng = A at h0
  generalize delivered (run R env s0 cs).2.eng.log = old at h0
  rcases run_append R env s0 cs cs' with g | g
  · rw [g]; exact h0
  · rw [g]
    refine run_hist (R := R) (env := env) (P := fun _ s => Ended c A old s.eng .idle) ?_ ?_ cs' [] _ h0
    · exact fun _ s k hk hs => RSteps.keeps (P := Ended c A old) (fun _ _ _ _ => Ended.step) (call_rx hr s k hk) hs
    · intro _ s n hs
      unfold pollM
      split
      · exact hs
      · exact RSteps.keeps (P := Ended c A old) (fun _ _ _ _ => Ended.step)
          (pollOutput_rx (env := env.toEnv) (keys := true) n _ s.eng) hs

end Verif.E13

import Verif.Lemmas.Ready13
import Verif.Lemmas.Walk13
/-!
# No call of a DTLS 1.3 handshake panics
-/
namespace Verif.E13
open Verif Wire Window Timer Aead M
open Verif.E12 (Call SearchOk Bad bad_fail Ret ApiRes toApi)
open Verif.Props.Safe13 (Roomy released_fine app_step first_not step_app step_half step_closed)

abbrev Done (R : Role) (st : R.St) : Prop := Verif.Props.Safe13.After R st

/-- What both roles have in common. -/
structure Plan (R : Role) (env : PEnv) where
  good : R.St → Ses R.St → Prop
  rank : R.St → Ses R.St → Nat
  low : ∀ st s, rank st s ≤ 30
  same : ∀ st x s, rank st { s with st := x } = rank st s
  step : ∀ st s, ¬ Done R st → good st s → wp (R.step env st) s
    (fun st' s' => good st' s' ∧ (st' ≠ st → rank st' s' < rank st s ∧ st' ≠ R.halfClosed ∧ st' ≠ R.closed)) (SEnds (good st))
  room : ∀ s, good R.app s → Room env.toEnv 2 s.eng.gauge
  frame : ∀ st s, good st s → ∃ l b, Fit env.toEnv l b s.eng ∧ s.random ≠ none ∧
    ∀ s', Fit env.toEnv l b s'.eng → s'.random ≠ none → s'.helloRetry = s.helloRetry → s'.extData = s.extData → good st s'

/-- What is assumed of the cryptography. -/
structure Crypto (env : PEnv) : Prop where
  suites : SuitesKnown env.toEnv
  search : SearchOk env.search
  hmac : ∀ k d, env.hmac k d ≠ none
  share : ∀ n g pub, env.kxStart n g = some pub → pub.length < 2 ^ 32

def C13.plan {env : PEnv} (hc : Crypto env) : Plan C13.role env where
  good := C13.Good env
  rank st s := C13.rank s.helloRetry st
  low st s := by
    show C13.rank s.helloRetry st ≤ 30
    cases s.helloRetry <;> cases st <;> decide
  same _ _ _ := rfl
  step st s hn h := by
    refine C13.step_ok hc.suites hc.search st ?_ h
    cases st <;> first | decide | exact absurd (.inl rfl) hn | exact absurd (.inr (.inl rfl)) hn | exact absurd (.inr (.inr rfl)) hn
  room s h := Fit.room (b := 3) h.fit rfl
  frame st s h := ⟨_, _, h.fit, h.random, fun s' h1 h2 h3 _ => by
    unfold C13.Good; rw [h3]; exact ⟨h1, h2, h3⟩⟩

def S13.plan {env : PEnv} (hc : Crypto env) : Plan S13.role env where
  good := S13.Good env
  rank st s := S13.rank s.helloRetry st
  low st s := by
    show S13.rank s.helloRetry st ≤ 30
    cases s.helloRetry <;> cases st <;> decide
  same _ _ _ := rfl
  step st s hn h := by
    refine S13.step_ok hc.suites hc.search hc.share hc.hmac st ?_ h.1 h.2
    cases st <;> first | decide | exact absurd (.inl rfl) hn | exact absurd (.inr (.inl rfl)) hn | exact absurd (.inr (.inr rfl)) hn
  room s h := Fit.room (b := 3) h.1.fit rfl
  frame st s h := ⟨_, _, h.1.fit, h.1.random, fun s' h1 h2 h3 h4 => by
    unfold S13.Good; rw [h3, h4]; exact ⟨⟨h1, h2, h3⟩, h.2⟩⟩

section
variable {R : Role} {env : PEnv} {cfg : Cfg} {s0 : Ses R.St}

/-- A session during the handshake, or just connected. -/
def Plan.Ok (p : Plan R env) (s : Ses R.St) : Prop := (¬ Done R s.st ∧ p.good s.st s) ∨ s.st = R.app

/-- The loop of `make_progress`. -/
theorem Plan.progress (p : Plan R env) (h : Start env cfg R s0) (n : Nat) (s : Ses R.St) (hg : p.good s.st s)
    (hst : ¬ Done R s.st ∨ s.st = R.app) (hn : p.rank s.st s < n) :
    wp (progress R env n) s (fun _ => p.Ok) (SEnds p.Ok) := by
  obtain ⟨k, ho⟩ := h.roleOk
  induction n generalizing s with
  | zero => omega
  | succ n ih =>
    unfold E13.progress
    simp only [bind_eq, wp_bind, wp_get]
    have keep := ho.keep s
    rcases hst with hst | hst
    · have hs := p.step s.st s hst hg
      have h2 : wp (R.step env s.st) s (fun _ s' => s'.st = s.st) (fun _ s' => s'.st = s.st) := by
        refine wp_of (fun a s' he => ?_) (fun f s' he => ?_)
        · rw [he] at keep; exact keep
        · rw [he] at keep; exact keep
      refine wp_mono (wp_and hs h2) ?_ ?_
      · rintro new s1 ⟨⟨h3, h4⟩, h5⟩
        by_cases hc : s.st = new
        · rw [if_pos hc]
          exact .inl ⟨by rw [h5]; exact hst, by rw [h5, hc]; exact h3⟩
        · rw [if_neg hc]
          simp only [wp_bind, wp_modify]
          obtain ⟨h6, h7, h8⟩ := h4 (fun h => hc h.symm)
          obtain ⟨l, b, f1, f2, f3⟩ := p.frame _ _ h3
          have hgood : p.good new { s1 with st := new } := f3 _ f1 f2 rfl rfl
          refine ih _ hgood ?_ ?_
          · by_cases ha : new = R.app
            · exact .inr ha
            · exact .inl fun hd => by
                rcases hd with hd | hd | hd
                · exact ha hd
                · exact h7 hd
                · exact h8 hd
          · show p.rank new _ < n
            rw [p.same]; omega
      · rintro f s1 ⟨h3, h4⟩
        cases f with
        | transient => exact .inl ⟨by rw [h4]; exact hst, by rw [h4]; exact h3⟩
        | fatal _ => trivial
        | panic => exact h3
        | diverge => exact h3.elim
    · rw [hst] at hg
      rw [hst, step_app h]
      rw [hst, step_app h] at keep
      have h2 : wp (awaitApplicationData env R.app) s (fun _ s' => s'.st = R.app) (fun _ s' => s'.st = R.app) := by
        refine wp_of (fun a s' he => ?_) (fun f s' he => ?_)
        · rw [he] at keep; exact keep
        · rw [he] at keep; exact keep
      refine wp_mono (wp_and (app_step R.app s (p.room s hg)) h2) ?_ ?_
      · rintro new s1 ⟨rfl, h5⟩
        rw [if_pos rfl]
        exact .inr h5
      · rintro f s1 ⟨h3, h4⟩
        cases f with
        | transient => exact .inr h4
        | fatal _ => trivial
        | panic => exact absurd trivial h3
        | diverge => exact absurd trivial h3

theorem Plan.packet (p : Plan R env) (hc : Crypto env) (h : Start env cfg R s0) (s : Ses R.St) (hst : ¬ Done R s.st)
    (hg : p.good s.st s) (x : Bytes) : wp (handlePacketM R env x) s (fun _ => p.Ok) (SEnds p.Ok) := by
  have hlast : ∀ s1 : Ses R.St, p.Ok s1 →
      p.Ok (if s1.autoMode && !R.first s1.st then { s1 with retained := [], autoMode := false } else s1) := by
    intro s1 h1
    split
    · rcases h1 with ⟨h1, h2⟩ | h1
      · obtain ⟨l, b, f1, f2, f3⟩ := p.frame _ _ h2
        exact .inl ⟨h1, f3 _ f1 f2 rfl rfl⟩
      · exact .inr h1
    · exact h1
  have hrest : ∀ s1 : Ses R.St, s1.st = s.st → p.good s.st s1 →
      wp (M.bind (onEng (parsePacket env.toEnv x)) fun _ => M.bind (E13.progress R env progressFuel) fun _ =>
        M.modify fun s => if s.autoMode && !R.first s.st then { s with retained := [], autoMode := false } else s) s1
        (fun _ => p.Ok) (SEnds p.Ok) := by
    intro s1 h1 h2
    simp only [wp_bind, wp_modify]
    obtain ⟨l, b, f1, f2, f3⟩ := p.frame _ _ h2
    refine wp_loud (f1.packet hc.search x) (fun _ e he => ?_) (fun e he => ?_)
    · refine wp_mono (p.progress h progressFuel _ (by rw [h1]; exact f3 _ he f2 rfl rfl) (.inl (by rw [h1]; exact hst)) ?_)
        (fun _ s2 h2 => hlast s2 h2) (fun _ _ h => h)
      exact Nat.lt_of_le_of_lt (p.low _ _) (by decide)
    · exact .inl ⟨by rw [h1]; exact hst, by rw [h1]; exact f3 _ he f2 rfl rfl⟩
  unfold handlePacketM
  simp only [bind_eq]
  rw [wp_bind, wp_get]
  split
  · split
    · trivial
    · rw [wp_bind, wp_modify]
      obtain ⟨l, b, f1, f2, f3⟩ := p.frame _ _ hg
      exact hrest _ rfl (f3 _ f1 f2 rfl rfl)
  · exact hrest s rfl hg

theorem Plan.timeout (p : Plan R env) (h : Start env cfg R s0) (s : Ses R.St) (n : Nat) (hst : ¬ Done R s.st)
    (hg : p.good s.st (noteTime R env n s)) : wp (handleTimeoutM R env n) s (fun _ => p.Ok) (SEnds p.Ok) := by
  unfold handleTimeoutM
  simp only [bind_eq, wp_bind, wp_modify]
  have h1 : (noteTime R env n s).st = s.st := by unfold noteTime; split <;> rfl
  obtain ⟨l, b, f1, f2, f3⟩ := p.frame _ _ hg
  revert h1 f1 f2 f3
  generalize noteTime R env n s = t
  intro h1 f1 f2 f3
  refine wp_loud (f1.timeout n) (fun _ e he => ?_) (fun e he => ?_)
  · refine p.progress h progressFuel _ (by rw [h1]; exact f3 _ he f2 rfl rfl) (.inl (by rw [h1]; exact hst)) ?_
    exact Nat.lt_of_le_of_lt (p.low _ _) (by decide)
  · exact .inl ⟨by rw [h1]; exact hst, by rw [h1]; exact f3 _ he f2 rfl rfl⟩

theorem Plan.note (p : Plan R env) {st : R.St} {s : Ses R.St} (n : Nat) (hg : p.good st s) : p.good st (noteTime R env n s) := by
  obtain ⟨l, b, f1, f2, f3⟩ := p.frame _ _ hg
  unfold noteTime
  split
  · exact f3 _ f1 f2 rfl rfl
  · rename_i hn; exact absurd hn f2

theorem Sim.sound {e e' : Eng} (h : Sim e e') (g : Steady env.toEnv e) : Steady env.toEnv e' := g.sim h

theorem sim_abort (e : Eng) : Sim e (abort e) := ⟨rfl, rfl, rfl, rfl, rfl, rfl, rfl, .inl rfl⟩

theorem sim_poll (b n : Nat) (e : Eng) : Sim e (pollOutput b n e).2 := by
  unfold pollOutput
  dsimp only
  have hp : Sim e (purge e) := ⟨rfl, rfl, rfl, rfl, rfl, rfl, rfl, .inr rfl⟩
  have hr : Sim e (pollRest b n (purge e)).2 := by
    unfold pollRest
    have hs : Sim e (scheduleAck n (purge e)) := by
      unfold scheduleAck
      repeat' split
      all_goals exact ⟨rfl, rfl, rfl, rfl, rfl, rfl, rfl, .inr rfl⟩
    dsimp only
    split
    · split
      · exact hs
      · exact ⟨hs.suite, hs.enc, hs.next, hs.peer, hs.ku, hs.hs, hs.recv, hs.saved⟩
    · split
      · exact ⟨hs.suite, hs.enc, hs.next, hs.peer, hs.ku, hs.hs, hs.recv, hs.saved⟩
      · exact hs
  split
  · split
    · split
      · exact hp
      · exact ⟨rfl, rfl, rfl, rfl, rfl, rfl, rfl, .inr rfl⟩
    · exact hr
  · exact hr

/-- Released application data stays so. -/
theorem release_keep {env : Env} {keys poll : Bool} {e e' : Eng} (g : RMove env keys poll e e') (h : e.release = true) :
    e'.release = true := by
  refine RSteps.keeps (P := fun e _ => e.release = true) ?_ g h
  intro s s' a a' g h
  have same : s'.release = s.release → s'.release = true := fun x => x.trans h
  cases g with
  | other g => exact same (congrArg RxPart.release g)
  | noted ho => exact same (openedSt_same ..).2.2.2.1
  | opened ho hr => exact same (openedSt_same ..).2.2.2.1
  | release _ _ => rfl
  | retain _ _ => rfl
  | _ => exact same rfl

theorem call_release (h : Start env cfg R s0) (s : Ses R.St) (c : Call) (hr : s.eng.release = true) :
    (call R env s c).2.eng.release = true := by
  obtain ⟨k, ho⟩ := h.roleOk
  by_cases hc : ∃ n, c = .poll n
  · obtain ⟨n, rfl⟩ := hc
    show (pollM R n s).2.eng.release = true
    unfold pollM
    split
    · exact hr
    · exact release_keep (pollOutput_rx (env := env.toEnv) (keys := true) n s.lastNow s.eng) hr
  · exact release_keep (call_rx ho s c fun n hn => hc ⟨n, hn⟩) hr

theorem C13.done_next (env : PEnv) {st : CSt} (hd : Done C13.role st) : Gives (Done C13.role) (C13.step env st) := by
  intro s a ha
  have hm := C13.step_succ env st s a ha
  rcases hd with rfl | rfl | rfl
  · exact .inl (List.mem_singleton.mp hm)
  · rcases List.mem_cons.mp hm with hm | hm
    · exact .inr (.inl hm)
    · exact .inr (.inr (List.mem_singleton.mp hm))
  · exact .inr (.inr (List.mem_singleton.mp hm))

theorem S13.done_next (env : PEnv) {st : SSt} (hd : Done S13.role st) : Gives (Done S13.role) (S13.step env st) := by
  intro s a ha
  have hm := S13.step_succ env st s a ha
  rcases hd with rfl | rfl | rfl
  · exact .inl (List.mem_singleton.mp hm)
  · rcases List.mem_cons.mp hm with hm | hm
    · exact .inr (.inl hm)
    · exact .inr (.inr (List.mem_singleton.mp hm))
  · exact .inr (.inr (List.mem_singleton.mp hm))

theorem done_next (h : Start env cfg R s0) {st : R.St} (hd : Done R st) : Gives (Done R) (R.step env st) := by
  cases h with
  | client now => exact C13.done_next env hd
  | hybrid _ _ _ _ => exact C13.done_next env hd
  | server _ _ => exact S13.done_next env hd

/-- The states after the handshake are not left. -/
theorem done_stable (h : Start env cfg R s0) : Stable R env (fun s => Done R s.st) := by
  obtain ⟨k, ho⟩ := h.roleOk
  refine ⟨fun s p h => h, fun s l b h => h, fun s n h => ?_, fun s n h => h, fun s hd => ?_, fun s d hd => ?_, fun s hd => ?_,
    fun s n h => ?_⟩
  · unfold noteTime; split <;> exact h
  · have keep := ho.keep s
    have hg := done_next h hd s
    refine wp_of (fun a s' he => ?_) (fun f s' he => ?_)
    · rw [he] at keep hg; exact ⟨keep, hg a rfl⟩
    · rw [he] at keep
      show Done R s'.st
      rw [keep]; exact hd
  · apply of_wp (R := fun s => Done R s.st) (m := sendM R env d)
    unfold sendM
    simp only [bind_eq, wp_bind, wp_get]
    split
    · exact hd
    · split
      · exact hd
      · unfold sendApp
        rw [wp_onEng]
        exact wp_of (fun _ _ _ => hd) (fun _ _ _ => hd)
  · apply of_wp (R := fun s => Done R s.st) (m := closeM R env)
    unfold closeM
    simp only [bind_eq, wp_bind, wp_get]
    split
    · exact hd
    · split
      · exact .inr (.inr rfl)
      · simp only [wp_bind, wp_onEng, wp_onEng', wp_modify]
        exact wp_of (fun _ _ _ => .inr (.inl rfl)) (fun _ _ _ => hd)
  · unfold pollM; split <;> exact h

theorem shut_progress (h : Start env cfg R s0) (s : Ses R.St) (hst : s.st = R.closed) {Q : Unit → Ses R.St → Prop}
    {F : Fault → Ses R.St → Prop} (hq : Q () s) : wp (progress R env progressFuel) s Q F := by
  show wp (progress R env (39 + 1)) _ _ _
  unfold progress
  simp only [bind_eq, wp_bind, wp_get]
  rw [hst, step_closed h]
  simp only [wp_pure, if_true, pure_eq]
  exact hq

/-- A session closed before it was connected. -/
theorem shut_packet (h : Start env cfg R s0) (hc : Crypto env) (s : Ses R.St) (hst : s.st = R.closed) (hs : Steady env.toEnv s.eng)
    (x : Bytes) : wp (handlePacketM R env x) s (fun _ s' => s'.st = R.closed ∧ Steady env.toEnv s'.eng)
      (fun f s' => ¬ Bad (.fail f : Res Unit) ∧ s'.st = R.closed ∧ Steady env.toEnv s'.eng) := by
  unfold handlePacketM
  simp only [bind_eq]
  rw [wp_bind, wp_get, hst, (first_not h).2.2]
  simp only [Bool.and_false, Bool.false_eq_true, if_false, wp_bind, wp_onEng, wp_modify]
  obtain ⟨h1, h2⟩ := parsePacket_mild hc.search x s.eng hs
  refine wp_of (fun _ e he => ?_) (fun f e he => ?_)
  · rw [he] at h2
    refine shut_progress h { s with eng := e } hst ?_
    split
    · exact ⟨hst, hs.sim h2⟩
    · exact ⟨hst, hs.sim h2⟩
  · rw [he] at h1 h2
    exact ⟨by rw [bad_fail] at h1 ⊢; exact h1, hst, hs.sim h2⟩

theorem shut_timeout (h : Start env cfg R s0) (s : Ses R.St) (hst : s.st = R.closed) (hs : Steady env.toEnv s.eng)
    (n : Nat) : wp (handleTimeoutM R env n) s (fun _ s' => s'.st = R.closed ∧ Steady env.toEnv s'.eng)
      (fun f s' => ¬ Bad (.fail f : Res Unit) ∧ s'.st = R.closed ∧ Steady env.toEnv s'.eng) := by
  unfold handleTimeoutM
  simp only [bind_eq, wp_bind, wp_modify]
  have h1 : (noteTime R env n s).st = R.closed := by unfold noteTime; split <;> exact hst
  have h2 : Steady env.toEnv (noteTime R env n s).eng := by
    unfold noteTime
    split
    · exact hs
    · exact ⟨hs.tagged, hs.saved, hs.enc, hs.ku, hs.keys⟩
  revert h1 h2
  generalize noteTime R env n s = t
  intro hst hs
  rw [wp_onEng]
  obtain ⟨h1, h2⟩ := handleTimeout_mild n t.eng hs
  refine wp_of (fun _ e he => ?_) (fun f e he => ?_)
  · rw [he] at h2
    exact shut_progress h { t with eng := e } hst ⟨hst, hs.sim h2⟩
  · rw [he] at h1 h2
    exact ⟨by rw [bad_fail] at h1 ⊢; exact h1, hst, hs.sim h2⟩

/-- A session as calls without errors leave it. -/
structure Plan.Inv (p : Plan R env) (s : Ses R.St) : Prop where
  good : ¬ Done R s.st → p.good s.st s
  closed : s.st = R.closed → s.eng.release = true ∨ Steady env.toEnv s.eng

/-- What a call may answer: no panic, or a full buffer of saved messages. -/
def Fair {St : Type} (r : Ret × Ses St) : Prop :=
  r.1 ≠ .res .diverge ∧ (r.1 = .res .panic → 12 ≤ r.2.eng.saved.length)

/-- After a call that is not answered with an error. -/
def Fine {St : Type} (r : Ret × Ses St) (P : Ses St → Prop) : Prop := (∀ x, r.1 = .res x → x = .ok) → P r.2

theorem answer {m : P R.St Unit} {s : Ses R.St} {P : Ses R.St → Prop} (h : wp m s (fun _ => P) (SEnds P)) :
    Fair (Ret.res (toApi (m s).1), (m s).2) ∧ Fine (Ret.res (toApi (m s).1), (m s).2) P := by
  cases hm : m s with
  | mk o s' =>
    cases o with
    | ok a => exact ⟨⟨nofun, nofun⟩, fun _ => wp_ok h hm⟩
    | fail f =>
      have := wp_fail h hm
      cases f with
      | transient => exact ⟨⟨nofun, nofun⟩, fun _ => this⟩
      | fatal e => exact ⟨⟨nofun, nofun⟩, fun hx => nomatch hx _ rfl⟩
      | panic => exact ⟨⟨nofun, fun _ => this⟩, fun hx => nomatch hx _ rfl⟩
      | diverge => exact this.elim

theorem answer' {m : P R.St Unit} {s : Ses R.St} {P : Ses R.St → Prop}
    (h : wp m s (fun _ => P) (fun f s' => ¬ Bad (.fail f : Res Unit) ∧ P s')) :
    Fair (Ret.res (toApi (m s).1), (m s).2) ∧ Fine (Ret.res (toApi (m s).1), (m s).2) P := by
  refine answer (wp_mono h (fun _ _ h => h) fun f s' g => ?_)
  cases f with
  | transient => exact g.2
  | fatal _ => trivial
  | panic => exact absurd trivial g.1
  | diverge => exact absurd trivial g.1

/-- A call during the handshake. -/
theorem Plan.call (p : Plan R env) (hc : Crypto env) (h : Start env cfg R s0) (s : Ses R.St) (hst : ¬ Done R s.st)
    (hg : p.good s.st s) (c : Call) (hp : Prov env.toEnv (E13.call R env s c).2.eng .idle) :
    Fair (E13.call R env s c) ∧
      Fine (E13.call R env s c) fun s' => p.Ok s' ∨ (s'.st = R.closed ∧ Steady env.toEnv s'.eng) := by
  have weak : ∀ {m : P R.St Unit}, wp m s (fun _ => p.Ok) (SEnds p.Ok) →
      Fair (Ret.res (toApi (m s).1), (m s).2) ∧ Fine (Ret.res (toApi (m s).1), (m s).2)
        fun s' => p.Ok s' ∨ (s'.st = R.closed ∧ Steady env.toEnv s'.eng) :=
    fun hw => ⟨(answer hw).1, fun hx => .inl ((answer hw).2 hx)⟩
  obtain ⟨l, b, f1, f2, f3⟩ := p.frame _ _ hg
  have hn1 : ¬ (s.st = R.closed ∨ s.st = R.halfClosed) := by
    rintro (hd | hd)
    · exact hst (.inr (.inr hd))
    · exact hst (.inr (.inl hd))
  have hn2 : s.st ≠ R.app := fun hd => hst (.inl hd)
  cases c with
  | packet x => exact weak (p.packet hc h s hst hg x)
  | timeout n => exact weak (p.timeout h s n hst (p.note n hg))
  | send d =>
    refine weak (m := sendM R env d) ?_
    unfold sendM
    rw [bind_eq, wp_bind, wp_get, if_neg hn1, if_pos hn2]
    exact .inl ⟨hst, f3 _ f1 f2 rfl rfl⟩
  | close =>
    refine answer (m := closeM R env) ?_
    unfold closeM
    simp only [bind_eq, wp_bind, wp_get]
    rw [if_neg hn1, if_pos hn2]
    exact .inr ⟨rfl, f1.sound.sim (sim_abort _)⟩
  | poll n =>
    refine ⟨⟨nofun, nofun⟩, fun _ => .inl ?_⟩
    show p.Ok (pollM R n s).2
    have hp : Prov env.toEnv (pollM R n s).2.eng .idle := hp
    unfold pollM at hp ⊢
    split
    · exact .inl ⟨hst, f3 _ f1 f2 rfl rfl⟩
    · rename_i hev
      rw [hev] at hp
      exact .inl ⟨hst, f3 _ (f1.sim (sim_poll ..) hp) f2 rfl rfl⟩

theorem shut_call (hc : Crypto env) (h : Start env cfg R s0) (s : Ses R.St) (hst : s.st = R.closed) (hs : Steady env.toEnv s.eng)
    (c : Call) : Fair (call R env s c) ∧ Fine (call R env s c) fun s' => s'.st = R.closed ∧ Steady env.toEnv s'.eng := by
  cases c with
  | packet x => exact answer' (shut_packet h hc s hst hs x)
  | timeout n => exact answer' (shut_timeout h s hst hs n)
  | send d =>
    refine answer (m := sendM R env d) ?_
    unfold sendM
    rw [bind_eq, wp_bind, wp_get, if_pos (.inl hst)]
    trivial
  | close =>
    refine answer (m := closeM R env) ?_
    unfold closeM
    rw [bind_eq, wp_bind, wp_get, if_pos (.inl hst)]
    exact ⟨hst, hs⟩
  | poll n =>
    refine ⟨⟨nofun, nofun⟩, fun _ => ?_⟩
    show (pollM R n s).2.st = _ ∧ Steady _ (pollM R n s).2.eng
    unfold pollM
    split
    · exact ⟨hst, hs⟩
    · exact ⟨hst, hs.sim (sim_poll ..)⟩

/-- With application data released when connected or closing. -/
theorem rel_of (h : Start env cfg R s0) (cs : List Call) (ha : (run R env s0 cs).2.st = R.app ∨ (run R env s0 cs).2.st = R.halfClosed) :
    (run R env s0 cs).2.eng.release = true := by
  have h0 : s0.eng.release = false := congrArg RxPart.release h.rp0
  obtain ⟨p, h1, _, h3, h2⟩ := h.phases relInv_client relInv_server (fun _ _ _ h => h)
    (fun _ _ _ h => h) ⟨fun _ => h0, nofun, nofun⟩ ⟨fun _ => h0, nofun, nofun⟩ cs
  have : p = 3 := ha.elim h1 h3
  subst this
  rcases h2 with h2 | h2
  · exact h2.2.2 rfl
  · exact h2.2.2 rfl

/-- One more call. -/
theorem Plan.next (p : Plan R env) (hc : Crypto env) (h : Start env cfg R s0) (cs : List Call) (c : Call)
    (hi : p.Inv (run R env s0 cs).2) (hp : Prov env.toEnv (E13.call R env (run R env s0 cs).2 c).2.eng .idle) :
    Fine (E13.call R env (run R env s0 cs).2 c) p.Inv := by
  have hrel := rel_of h cs
  revert hi hrel hp
  generalize (run R env s0 cs).2 = s
  intro hi hp hrel hx
  by_cases hst : Done R s.st
  · have hd := (done_stable h).call s c hst
    refine ⟨fun hn => absurd hd hn, fun hcl => ?_⟩
    by_cases hr : s.eng.release = true
    · exact .inl (call_release h s c hr)
    · rcases hst with ha | ha | ha
      · exact absurd (hrel (.inl ha)) hr
      · exact absurd (hrel (.inr ha)) hr
      · rcases hi.closed ha with hs | hs
        · exact absurd hs hr
        · exact .inr ((shut_call hc h s ha hs c).2 hx).2
  · obtain ⟨k, ho⟩ := h.roleOk
    rcases (p.call hc h s hst (hi.good hst) c hp).2 hx with (⟨h1, h2⟩ | h1) | ⟨h1, h2⟩
    · exact ⟨fun _ => h2, fun hcl => absurd (.inr (.inr hcl)) h1⟩
    · exact ⟨fun hn => absurd (.inl h1) hn, fun hcl => absurd (h1.symm.trans hcl) ho.appClosed⟩
    · exact ⟨fun hn => absurd (.inr (.inr h1)) hn, fun _ => .inr h2⟩

end

/-! ## The beginning -/

theorem new_fit (env : Env) (cfg : Cfg) (x : Bool) (b : Nat) (hb : b ≤ 65000) (hp : Prov env (Eng.new env cfg x) .idle) :
    Fit env ⟨false, true, true⟩ b (Eng.new env cfg x) := by
  refine ⟨⟨nofun, .inl nofun, nofun, rfl, fun h => absurd rfl h⟩, nofun, ?_, ?_, fun _ => rfl, nofun, fun _ => rfl, hp⟩
  · show 0 + b ≤ 65535; omega
  · show 0 + b ≤ 65535; omega

theorem Start.plan {env : PEnv} {cfg : Cfg} {R : Role} {s0 : Ses R.St} (h : Start env cfg R s0) (hc : Crypto env) :
    ∃ p : Plan R env, ¬ Done R s0.st ∧ ∀ n, p.good s0.st (noteTime R env n s0) := by
  have hp := h.prov []
  cases h with
  | client now =>
    refine ⟨C13.plan hc, (by rintro (h | h | h) <;> cases h), fun n => ?_⟩
    exact ⟨(new_fit env.toEnv cfg true 30 (by decide) hp).tick, nofun, rfl⟩
  | hybrid r t kx now =>
    refine ⟨C13.plan hc, (by rintro (h | h | h) <;> cases h), fun n => ?_⟩
    refine ⟨?_, nofun, rfl⟩
    show Fit env.toEnv ⟨false, true, true⟩ 29 (injectHybrid t (.new env.toEnv cfg true))
    refine ⟨⟨nofun, .inl nofun, nofun, rfl, fun h => absurd rfl h⟩, nofun, ?_, ?_, fun _ => rfl, nofun, fun _ => rfl, hp⟩
    · show 1 + 29 ≤ 65535; omega
    · show 0 + 29 ≤ 65535; omega
  | server now auto =>
    refine ⟨S13.plan hc, (by rintro (h | h | h) <;> cases h), fun n => ?_⟩
    exact ⟨⟨(new_fit env.toEnv cfg false 30 (by decide) hp).tick, nofun, rfl⟩, nofun⟩

end Verif.E13

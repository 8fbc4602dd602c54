import Verif.Lemmas.Role12
import Verif.Lemmas.Rule12
import Verif.Lemmas.Start12
import Verif.Props.Timer
/-!
# The timers of a DTLS 1.2 session
-/
namespace Verif.E12
open Verif Wire Window Timer Aead M

/-- Configuration and connect timer. -/
def Eng.ck (s : Eng) : Cfg × Timeout := (s.cfg, s.timers.connect)

/-- Configuration and timers are the same. -/
def SameTime (a b : Eng) : Prop := b.cfg = a.cfg ∧ b.timers = a.timers

theorem SameTime.refl (e : Eng) : SameTime e e := ⟨rfl, rfl⟩
theorem SameTime.trans {a b c : Eng} (h : SameTime a b) (g : SameTime b c) : SameTime a c :=
  ⟨g.1.trans h.1, g.2.trans h.2⟩
theorem SameTime.ck {a b : Eng} (h : SameTime a b) : b.ck = a.ck := Prod.ext h.1 (congrArg Timers.connect h.2)

theorem SendFrame.time {a b : Eng} (h : SendFrame a b) : SameTime a b := by
  obtain ⟨_, _, _, _, _, _, _, rfl⟩ := h
  exact ⟨rfl, rfl⟩

theorem time_in (env : Env) : InFrame env SameTime where
  refl := SameTime.refl
  trans _ _ _ h g := h.trans g
  recv e p := by
    obtain ⟨rp, cf, cr, es, he, hs⟩ := recordsParse_frame env p e
    rw [hs]; exact ⟨rfl, rfl⟩
  resend e := (flightResend_frame env e).time
  rx _ _ _ := ⟨rfl, rfl⟩
  peerEnc _ := ⟨rfl, rfl⟩

theorem createHandshake_time (env : Env) (t : UInt8) (b : Bytes) (s : Eng) : SameTime s (createHandshake env t b s).2 := by
  unfold createHandshake
  dsimp only
  split
  · exact ⟨rfl, rfl⟩
  split
  · exact ⟨rfl, rfl⟩
  · exact SameTime.trans (b := { s with transcript := _, nextSeq := _ }) ⟨rfl, rfl⟩ (fragmentLoop_frame ..).time

theorem nextHandshake_time (env : Env) (t : UInt8) (s : Eng) : SameTime s (nextHandshake env t s).2 := by
  unfold nextHandshake
  split
  · exact .refl s
  split
  · exact .refl s
  unfold defragment
  dsimp only
  repeat' split
  all_goals exact ⟨rfl, rfl⟩

theorem nextRecord_time (c : UInt8) (s : Eng) : SameTime s (nextRecord c s).2 := by
  unfold nextRecord
  repeat' split
  all_goals exact ⟨rfl, rfl⟩

theorem pollOutput_time (b n : Nat) (s : Eng) : SameTime s (pollOutput b n s).2 := by
  unfold pollOutput pollRest
  dsimp only
  repeat' split
  all_goals exact ⟨rfl, rfl⟩

/-- A relation that looks at the timers only and does not mind a new flight. -/
theorem time_hs (env : Env) {U : Eng → Eng → Prop} (hs : ∀ a b, SameTime a b → U a b)
    (ht : ∀ a b c, U a b → U b c → U a c) (hb : ∀ e, U e (flightBegin env e)) : HsFrame env U where
  refl e := hs _ _ (.refl e)
  trans := ht
  handshake e t b := hs _ _ (createHandshake_time env t b e)
  ccs _ := hs _ _ (createRecord_frame ..).time
  nextHandshake e t := hs _ _ (nextHandshake_time env t e)
  nextRecord e c := hs _ _ (nextRecord_time c e)
  enablePeer e := hs _ _ ((time_in env).enablePeer e)
  flightBegin := hb
  resetServer e := hs _ _ (by unfold resetServerForHvr; repeat' split
                              all_goals exact ⟨rfl, rfl⟩)
  resetClient e := hs _ _ (by unfold resetClientForHvr; repeat' split
                              all_goals exact ⟨rfl, rfl⟩)
  dropCcs e := hs _ _ (by unfold dropPendingCcs; repeat' split
                          all_goals exact ⟨rfl, rfl⟩)
  tick _ := hs _ _ ⟨rfl, rfl⟩
  suite e cs := hs _ _ (by unfold setCipherSuite; split <;> exact ⟨rfl, rfl⟩)
  master _ _ := hs _ _ ⟨rfl, rfl⟩
  keys _ _ := hs _ _ ⟨rfl, rfl⟩

/-- Until the session is announced as connected nothing touches the connect timer. -/
theorem clock_hs (env : Env) : HsFrame env (fun a b => b.ck = a.ck) :=
  time_hs env (fun _ _ h => h.ck) (fun _ _ _ h g => g.trans h) fun _ => rfl

/-- The flight timer is not armed for an instant up to `n`. -/
def FlightOk (n : Nat) (e : Eng) : Prop := ∀ f, e.timers.flight = .armed f → n < f

theorem flight_frame (env : Env) (n : Nat) : Frame env (fun a b => FlightOk n a → FlightOk n b) where
  toHsFrame := time_hs env (fun _ _ h g => by unfold FlightOk; rw [h.2]; exact g) (fun _ _ _ h g x => g (h x))
    fun _ _ _ hf => nomatch hf
  flightStop _ _ _ hf := nomatch hf
  release _ h := h

/-! ## The state that announces the connection -/

/-- Both timers are off. -/
def Off (e : Eng) : Prop := e.timers.connect = .disabled ∧ e.timers.flight = .disabled

theorem announce_off {St : Type} {env : PEnv} (a : St) (f g : Ses St → Option Bytes) (s : Ses St) :
    wp (announceConnected env a f g) s
      (fun new s' => new = a ∧ s'.eng.cfg = s.eng.cfg ∧ Off s'.eng ∧ s'.st = s.st ∧ s'.lastNow = s.lastNow)
      (fun x _ => x = .panic) := by
  unfold announceConnected
  simp only [bind_eq, pure_eq, wp_bind, wp_onEng', wp_modify, wp_get]
  have hoff : Off (flightStop s.eng) := ⟨rfl, rfl⟩
  split
  · exact ⟨rfl, rfl, hoff, rfl, rfl⟩
  · simp only [wp_bind]
    unfold orPanic
    split
    · rw [wp_pure]
      split
      · split
        · exact ⟨rfl, rfl, hoff, rfl, rfl⟩
        · exact ⟨rfl, rfl, hoff, rfl, rfl⟩
      · exact ⟨rfl, rfl, hoff, rfl, rfl⟩
    · rfl

/-- What the step of a state that may announce the connection does to the timers. -/
def Fin {St : Type} (m : P St St) (self app : St) : Prop :=
  ∀ s, wp m s (fun new s' => s'.st = s.st ∧ ((new = self ∧ s'.eng.ck = s.eng.ck) ∨
      (new = app ∧ s'.eng.cfg = s.eng.cfg ∧ Off s'.eng)))
    (fun x s' => x = .panic ∨ (s'.st = s.st ∧ s'.eng.ck = s.eng.ck))

theorem wp_fr {St α : Type} {U : Eng → Eng → Prop} {m : P St α} (h : Fr U m) (s : Ses St) :
    wp m s (fun _ s' => U s.eng s'.eng ∧ s'.st = s.st ∧ s'.lastNow = s.lastNow)
      (fun _ s' => U s.eng s'.eng ∧ s'.st = s.st ∧ s'.lastNow = s.lastNow) :=
  to_wp (R := fun s' : Ses St => U s.eng s'.eng ∧ s'.st = s.st ∧ s'.lastNow = s.lastNow) ⟨(h s).1, (h s).2.2⟩

theorem C12.awaitFinished_fin (env : PEnv) :
    Fin (C12.awaitFinished env) .awaitFinished .awaitApplicationData := by
  intro s
  unfold C12.awaitFinished
  simp only [bind_eq, pure_eq, wp_bind]
  refine wp_mono (wp_fr (Fr.verifyData (clock_hs env.toEnv) false) s) ?_ (fun _ _ h => .inr ⟨h.2.1, h.1⟩)
  intro exp s1 h1
  refine wp_mono (wp_fr (U := fun a b => b.ck = a.ck) (Fr.onEng fun e => (clock_hs env.toEnv).nextHandshake e mtFinished) s1) ?_
    (fun _ _ h => .inr ⟨h.2.1.trans h1.2.1, h.1.trans h1.1⟩)
  intro m s2 h2
  have e1 := h2.1.trans h1.1
  have e2 := h2.2.1.trans h1.2.1
  split
  · exact ⟨e2, .inl ⟨rfl, e1⟩⟩
  · simp only [wp_bind]
    unfold check
    split
    · rw [wp_pure]
      refine wp_mono (announce_off _ _ _ s2) ?_ (fun _ _ h => .inl h)
      rintro new s3 ⟨h3, h4, h5, h6, _⟩
      exact ⟨h6.trans e2, .inr ⟨h3, h4.trans (congrArg Prod.fst e1), h5⟩⟩
    · exact .inr ⟨e2, e1⟩
  · exact .inl rfl

theorem S12.sendFinished_fin (env : PEnv) :
    Fin (S12.sendFinished env) .sendFinished .awaitApplicationData := by
  intro s
  unfold S12.sendFinished
  simp only [bind_eq, wp_bind]
  refine wp_mono (wp_fr (Fr.verifyData (clock_hs env.toEnv) false) s) ?_ (fun _ _ h => .inr ⟨h.2.1, h.1⟩)
  intro v s1 h1
  refine wp_mono (wp_fr (U := fun a b => b.ck = a.ck) (Fr.onEng fun e => (clock_hs env.toEnv).handshake e mtFinished v) s1) ?_
    (fun _ _ h => .inr ⟨h.2.1.trans h1.2.1, h.1.trans h1.1⟩)
  intro _ s2 h2
  refine wp_mono (announce_off _ _ _ s2) ?_ (fun _ _ h => .inl h)
  rintro new s3 ⟨h3, h4, h5, h6, _⟩
  exact ⟨h6.trans (h2.2.1.trans h1.2.1), .inr ⟨h3, h4.trans (congrArg Prod.fst (h2.1.trans h1.1)), h5⟩⟩

/-! ## Roles -/

/-- `fin` is the only state that announces the connection. -/
structure TimeRole (R : Role) (env : PEnv) (fin : R.St) : Prop where
  role : RoleOk R env
  ne : fin ≠ R.app ∧ fin ≠ R.closed
  early : ∀ st, st ≠ fin → st ≠ R.app → st ≠ R.closed → Fr (fun a b => b.ck = a.ck) (R.step env st) ∧
    Rets (fun new => new ≠ R.app ∧ new ≠ R.closed) (R.step env st)
  fin : Fin (R.step env fin) fin R.app

theorem C12.next_early (st a : CSt) (h1 : st ≠ .awaitFinished) (h2 : st ≠ .awaitApplicationData) (h3 : st ≠ .closed)
    (h : a ∈ C12.next st) : a ≠ .awaitApplicationData ∧ a ≠ .closed := by
  revert h1 h2 h3 h
  cases st <;> cases a <;> decide

theorem C12.timeRole (env : PEnv) : TimeRole C12.role env .awaitFinished where
  role := C12.roleOk env
  ne := ⟨nofun, nofun⟩
  early st h1 h2 h3 := by
    refine ⟨C12.hs_fr (clock_hs env.toEnv) st h2 fun h => absurd h h1, ?_⟩
    intro s a s' h
    exact C12.next_early st a h1 h2 h3 (C12.step_next st s a s' h)
  fin := C12.awaitFinished_fin env

theorem S12.next_early (st a : SSt) (h1 : st ≠ .sendFinished) (h2 : st ≠ .awaitApplicationData) (h3 : st ≠ .closed)
    (h : a ∈ S12.next st) : a ≠ .awaitApplicationData ∧ a ≠ .closed := by
  revert h1 h2 h3 h
  cases st <;> cases a <;> decide

theorem S12.timeRole (env : PEnv) : TimeRole S12.role env .sendFinished where
  role := S12.roleOk env
  ne := ⟨nofun, nofun⟩
  early st h1 h2 h3 := by
    refine ⟨S12.hs_fr (clock_hs env.toEnv) st h2 fun h => absurd h h1, ?_⟩
    intro s a s' h
    exact S12.next_early st a h1 h2 h3 (S12.step_next st s a s' h)
  fin := S12.sendFinished_fin env

/-! ## The connected state -/

/-- Timers and state stay. -/
def TFr {St α : Type} (m : P St α) : Prop := ∀ s, SameTime s.eng (m s).2.eng ∧ (m s).2.st = s.st ∧ (m s).2.lastNow = s.lastNow

theorem TFr.bind {St α β : Type} {m : P St α} {f : α → P St β} (h : TFr m) (g : ∀ a, TFr (f a)) : TFr (M.bind m f) := by
  intro s
  rw [bind_snd]
  split
  · exact ⟨(h s).1.trans (g _ _).1, (g _ _).2.1.trans (h s).2.1, (g _ _).2.2.trans (h s).2.2⟩
  · exact h s

theorem TFr.record {St : Type} {env : PEnv} (c : UInt8) (n : Nat) (d : Bytes) :
    TFr (onEng (createRecord env.toEnv c n false false d) : P St Unit) := fun s =>
  ⟨(createRecord_frame env.toEnv c n false false d s.eng).time, rfl, rfl⟩

theorem drainLoop_time {St : Type} {env : PEnv} (ds : List Bytes) : TFr (drainLoop env ds : P St Unit) := by
  induction ds with
  | nil => exact fun _ => ⟨.refl _, rfl, rfl⟩
  | cons d rest ih =>
    unfold drainLoop
    exact .bind (.record _ _ _) fun _ => ih

theorem app_time {St : Type} {env : PEnv} (a b : St) : TFr (awaitApplicationData env a b) := by
  unfold awaitApplicationData sendCloseNotify drainQueued
  simp only [bind_eq, pure_eq]
  refine .bind (fun _ => ⟨.refl _, rfl, rfl⟩) fun s => ?_
  split
  · exact .bind (fun _ => ⟨⟨rfl, rfl⟩, rfl, rfl⟩) fun _ => .bind (.record _ _ _) fun _ _ => ⟨.refl _, rfl, rfl⟩
  · exact .bind (fun s => by
      show SameTime s.eng (M.bind _ _ s).2.eng ∧ _
      rw [bind_snd]
      exact drainLoop_time s.queued { s with queued := [] }) fun _ _ => ⟨.refl _, rfl, rfl⟩

/-! ## Executions -/

/-- What a call does to the connect timer as long as nothing stops it. -/
def afterCall (c : Call) (x : Cfg × Timeout) : Cfg × Timeout :=
  match c with
  | .timeout n => (x.1, if x.2 = .unarmed then .armed (n + x.1.handshakeTimeout) else x.2)
  | _ => x

/-- The connect timer runs through the handshake; afterwards both timers are off. -/
structure Kept {R : Role} (x : Cfg × Timeout) (s : Ses R.St) : Prop where
  cfg : s.eng.cfg = x.1
  off : s.st = R.app ∨ s.st = R.closed → Off s.eng
  run : s.st ≠ R.app → s.st ≠ R.closed → s.eng.timers.connect = x.2

section
variable {R : Role} {env : PEnv} {fin : R.St} {x : Cfg × Timeout}

theorem Kept.time {s s' : Ses R.St} (h : Kept x s) (ht : SameTime s.eng s'.eng) (hs : s'.st = s.st) : Kept x s' := by
  refine ⟨ht.1.trans h.cfg, ?_, ?_⟩
  · rw [hs]
    intro g
    obtain ⟨g1, g2⟩ := h.off g
    unfold Off
    rw [ht.2]
    exact ⟨g1, g2⟩
  · rw [hs, ht.2]; exact h.run

theorem Kept.step (hr : TimeRole R env fin) (s : Ses R.St) (h : Kept x s) :
    wp (R.step env s.st) s (fun new s' => s'.st = s.st ∧ Kept x { s' with st := new })
      (fun f s' => f = .panic ∨ Kept x s') := by
  by_cases ha : s.st = R.app
  · have h1 : TFr (R.step env R.app) := by rw [hr.role.app]; exact app_time _ _
    have h2 : Rets (fun new => new = R.app ∨ new = R.closed) (R.step env R.app) := by
      rw [hr.role.app]; exact awaitApplicationData_rets (.inl rfl) (.inr rfl)
    rw [ha]
    apply wp_of
    · intro new s' he
      have g := h1 s
      rw [he] at g
      refine ⟨g.2.1.trans ha, ?_⟩
      have o : Off s'.eng := by unfold Off; rw [g.1.2]; exact h.off (.inl ha)
      refine ⟨g.1.1.trans h.cfg, fun _ => o, fun n1 n2 => ?_⟩
      rcases h2 _ _ _ he with e | e
      · exact absurd e n1
      · exact absurd e n2
    · intro f s' he
      have g := h1 s
      rw [he] at g
      exact .inr (h.time g.1 g.2.1)
  by_cases hc : s.st = R.closed
  · rw [hc, hr.role.closed, wp_pure]
    refine ⟨hc, h.cfg, fun _ => h.off (.inr hc), fun _ n2 => absurd rfl n2⟩
  have hx := h.run ha hc
  by_cases hf : s.st = fin
  · rw [hf]
    refine wp_mono (hr.fin s) ?_ ?_
    · rintro new s' ⟨g1, g2⟩
      refine ⟨g1.trans hf, ?_⟩
      rcases g2 with ⟨rfl, g2⟩ | ⟨rfl, g2, g3⟩
      · refine ⟨Eq.trans (congrArg Prod.fst g2) h.cfg, fun o => ?_, fun _ _ => Eq.trans (congrArg Prod.snd g2) hx⟩
        rcases o with o | o
        · exact absurd o hr.ne.1
        · exact absurd o hr.ne.2
      · exact ⟨g2.trans h.cfg, fun _ => g3, fun n1 => absurd rfl n1⟩
    · rintro f s' (g | ⟨g1, g2⟩)
      · exact .inl g
      · refine .inr ⟨Eq.trans (congrArg Prod.fst g2) h.cfg, fun o => ?_, fun _ _ => Eq.trans (congrArg Prod.snd g2) hx⟩
        rw [g1] at o
        exact (o.elim ha hc).elim
  · obtain ⟨h1, h2⟩ := hr.early s.st hf ha hc
    apply wp_of
    · intro new s' he
      have g := h1 s
      rw [he] at g
      refine ⟨g.2.2.1, Eq.trans (congrArg Prod.fst g.1) h.cfg, fun o => ?_, fun _ _ => Eq.trans (congrArg Prod.snd g.1) hx⟩
      have n := h2 _ _ _ he
      exact (o.elim n.1 n.2).elim
    · intro f s' he
      have g := h1 s
      rw [he] at g
      refine .inr ⟨Eq.trans (congrArg Prod.fst g.1) h.cfg, fun o => ?_, fun _ _ => Eq.trans (congrArg Prod.snd g.1) hx⟩
      rw [g.2.2.1] at o
      exact (o.elim ha hc).elim

theorem Kept.progress (hr : TimeRole R env fin) (fuel : Nat) (s : Ses R.St) (h : Kept x s) :
    wp (progress R env fuel) s (fun _ s' => Kept x s') (fun f s' => f = .panic ∨ Kept x s') := by
  induction fuel generalizing s with
  | zero => exact .inr h
  | succ n ih =>
    unfold E12.progress
    simp only [bind_eq, pure_eq, wp_bind, wp_get]
    refine wp_mono (h.step hr) ?_ (fun _ _ g => g)
    rintro new s' ⟨hst, hI⟩
    split
    · rename_i he
      subst he
      rw [wp_pure]
      have : s' = { s' with st := s.st } := by rw [← hst]
      rw [this]
      exact hI
    · simp only [wp_bind, wp_modify]
      exact ih _ hI

/-- `handle_timeout` arms the connect timer and does nothing else to it. -/
theorem handleTimeout_ck (env : Env) (n : Nat) (s : Eng) :
    (handleTimeout env n s).2.ck = afterCall (.timeout n) s.ck := by
  have h : (s.timers.handle s.cfg.handshakeTimeout n (env.jitter s.tick)).1.connect =
      if s.timers.connect = .unarmed then .armed (n + s.cfg.handshakeTimeout) else s.timers.connect := by
    have h1 : (s.timers.handle s.cfg.handshakeTimeout n (env.jitter s.tick)).1.connect =
        (s.timers.arm s.cfg.handshakeTimeout n).connect := by
      unfold Timers.handle
      dsimp only
      repeat' split
      all_goals rfl
    rw [h1]
    unfold Timers.arm
    dsimp only
    by_cases h2 : s.timers.connect = .unarmed <;> simp only [h2, if_true, if_false] <;> split <;> simp_all
  unfold handleTimeout
  generalize s.timers.handle s.cfg.handshakeTimeout n (env.jitter s.tick) = r at h
  obtain ⟨t, f⟩ := r
  have e : ({ s with timers := t, tick := s.tick + 1 } : Eng).ck = afterCall (.timeout n) s.ck := Prod.ext rfl h
  cases f <;> first | exact e | exact (flightResend_frame ..).time.ck.trans e

/-- Timers that are off stay off and report nothing. -/
theorem handleTimeout_off (env : Env) (n : Nat) (s : Eng) (h : Off s) :
    (handleTimeout env n s).1 = .ok () ∧ Off (handleTimeout env n s).2 := by
  obtain ⟨h1, h2⟩ := h
  have h3 : s.timers.handle s.cfg.handshakeTimeout n (env.jitter s.tick) = (s.timers, .idle) := by
    unfold Timers.handle Timers.arm
    simp [h1, h2, Timeout.expired]
  unfold handleTimeout
  rw [h3]
  exact ⟨rfl, h1, h2⟩

theorem Kept.timeout (n : Nat) (s : Ses R.St) (h : Kept x s) :
    Kept (afterCall (.timeout n) x) { s with eng := (handleTimeout env.toEnv n s.eng).2 } := by
  have h1 := handleTimeout_ck env.toEnv n s.eng
  refine ⟨Eq.trans (congrArg Prod.fst h1) h.cfg, fun o => (handleTimeout_off env.toEnv n s.eng (h.off o)).2, fun a b => ?_⟩
  refine Eq.trans (congrArg Prod.snd h1) ?_
  have e : s.eng.ck = x := Prod.ext h.cfg (h.run a b)
  rw [e]

theorem Kept.note (n : Nat) (s : Ses R.St) (h : Kept x s) : Kept x (noteTime R env n s) := by
  unfold noteTime
  split
  · exact h.time (.refl _) rfl
  · exact h.time ⟨rfl, rfl⟩ rfl

/-- The call ended the process. -/
def Halts (r : Ret) : Prop := r = .res .panic ∨ r = .res .diverge ∨ r = .out .panic

instance (r : Ret) : Decidable (Halts r) := by unfold Halts; infer_instance

theorem Kept.of_api {s' : Ses R.St} {f : Res Unit} (h : f = .fail .panic ∨ Kept x s') (hh : ¬ Halts (.res (toApi f))) :
    Kept x s' := by
  rcases h with rfl | h
  · exact absurd (.inl rfl) hh
  · exact h

theorem Kept.call (hr : TimeRole R env fin) (s : Ses R.St) (c : Call) (h : Kept x s)
    (hh : ¬ Halts (call R env s c).1) : Kept (afterCall c x) (call R env s c).2 := by
  cases c with
  | packet p =>
    refine Kept.of_api (f := (handlePacketM R env p s).1) ?_ hh
    have h1 : wp (handlePacketM R env p) s (fun _ s' => Kept x s') (fun f s' => f = .panic ∨ Kept x s') := by
      unfold handlePacketM
      simp only [bind_eq, wp_bind, wp_onEng]
      have g : Kept x { s with eng := (parsePacket env.toEnv p s.eng).2 } :=
        h.time ((time_in env.toEnv).parsePacket p s.eng) rfl
      exact wp_mono (wp_state (R := fun e => Kept x { s with eng := e }) |>.mpr g)
        (fun _ e he => he.progress hr _ _) (fun _ e he => .inr he)
    unfold wp at h1
    show _ ∨ Kept x (handlePacketM R env p s).2
    generalize handlePacketM R env p s = r at h1
    obtain ⟨r1, r2⟩ := r
    cases r1 with
    | ok a => exact .inr h1
    | fail f => exact h1.imp (congrArg Res.fail) id
  | timeout n =>
    refine Kept.of_api (f := (handleTimeoutM R env n s).1) ?_ hh
    have h1 : wp (handleTimeoutM R env n) s (fun _ s' => Kept (afterCall (.timeout n) x) s')
        (fun f s' => f = .panic ∨ Kept (afterCall (.timeout n) x) s') := by
      unfold handleTimeoutM
      simp only [bind_eq, wp_bind, wp_onEng, wp_modify]
      exact wp_mono (wp_state (R := fun e => Kept (afterCall (.timeout n) x) { noteTime R env n s with eng := e }) |>.mpr
        ((h.note n).timeout n)) (fun _ e he => he.progress hr _ _) (fun _ e he => .inr he)
    unfold wp at h1
    show _ ∨ Kept _ (handleTimeoutM R env n s).2
    generalize handleTimeoutM R env n s = r at h1
    obtain ⟨r1, r2⟩ := r
    cases r1 with
    | ok a => exact .inr h1
    | fail f => exact h1.imp (congrArg Res.fail) id
  | send d =>
    show Kept x (sendM R env d s).2
    have : TFr (sendM R env d) := by
      unfold sendM
      simp only [bind_eq]
      refine .bind (fun _ => ⟨.refl _, rfl, rfl⟩) fun s => ?_
      repeat' split
      · exact fun _ => ⟨.refl _, rfl, rfl⟩
      · exact fun _ => ⟨⟨rfl, rfl⟩, rfl, rfl⟩
      · exact .record _ _ _
    exact h.time (this s).1 (this s).2.1
  | close =>
    show Kept x (closeM R env s).2
    apply of_wp (m := closeM R env)
    unfold closeM sendCloseNotify
    simp only [bind_eq, pure_eq, wp_bind, wp_get]
    split
    · exact h
    · rename_i hc
      split
      · simp only [wp_bind, wp_onEng', wp_modify]
        exact ⟨h.cfg, fun _ => ⟨rfl, rfl⟩, fun _ n => absurd rfl n⟩
      · rename_i ha
        have ha : s.st = R.app := by simpa using ha
        simp only [wp_bind, wp_modify]
        have g := TFr.record (env := env) ctAlert 1 [1, 0] s
        have k := h.time g.1 g.2.1
        refine wp_mono (to_wp (R := fun s' => Kept x s' ∧ s'.st = s.st) ⟨k, g.2.1⟩) ?_ (fun _ _ g => g.1)
        rintro _ s' ⟨g1, g2⟩
        exact ⟨g1.cfg, fun _ => g1.off (.inl (g2.trans ha)), fun _ n => absurd rfl n⟩
  | poll n =>
    show Kept x (pollM R n s).2
    unfold pollM
    split
    · exact h.time (.refl _) rfl
    · exact h.time (pollOutput_time ..) rfl

theorem Kept.exec (hr : TimeRole R env fin) (cs : List Call) (s : Ses R.St) (h : Kept x s)
    (hh : ∀ r ∈ (E12.run R env s cs).1, ¬ Halts r) :
    Kept (cs.foldl (fun x c => afterCall c x) x) (E12.run R env s cs).2 := by
  induction cs generalizing s x with
  | nil => exact h
  | cons c cs ih =>
    unfold E12.run at hh ⊢
    simp only at hh ⊢
    split at hh
    · rename_i g
      exact absurd g (hh _ (by simp))
    · rename_i g
      rw [if_neg g]
      exact ih _ (h.call hr s c g) fun r hr => hh r (by simp [hr])

end

end Verif.E12

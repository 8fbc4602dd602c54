import Verif.Lemmas.Hushed13
/-!
# Lives of DTLS 1.3 sessions

`Story` is induction over the calls of a session with an invariant `I` on what it has output so far and
its present state, and a weaker statement `D` for sessions whose process panicked. `Saga` specialises it
to the stages of a handshake.
-/
namespace Verif.E13
open Verif Wire Window Timer Aead M
open Verif.E12 (Call Output Ret ApiRes eventOutput outputs toApi outputs_append)

/-- After this fault the process is gone. -/
def gone : Fault → Prop
  | .panic => True
  | .diverge => True
  | _ => False

/-- What induction over the calls of a session needs. -/
structure Story (R : Role) (env : PEnv) (I D : List Output → Ses R.St → Prop) : Prop where
  weak : ∀ os s, I os s → D os s
  eng : ∀ os s e, I os s → Grow s.eng e → Hushed s.eng e → I os { s with eng := e }
  note : ∀ os s n, I os s → I os (noteTime R env n s)
  keep : ∀ os s l b, I os s → (b = true → s.autoMode = true) → I os { s with retained := l, autoMode := b }
  queue : ∀ os s l, I os s → I os { s with queued := l }
  step : ∀ os s, I os s → wp (R.step env s.st) s
    (fun new s' => s'.st = s.st ∧ I os { s' with st := new })
    (fun f s' => s'.st = s.st ∧ D os s' ∧ (¬ gone f → I os s'))
  closed : ∀ os s, s.st ≠ R.app → s.st ≠ R.halfClosed → I os s → I os { s with st := R.closed }
  half : ∀ os s, s.st = R.app → I os s → I os { s with st := R.halfClosed }
  poll : ∀ os s n, I os s → I (os ++ [(pollM R n s).1]) (pollM R n s).2

section story
variable {R : Role} {env : PEnv} {I D : List Output → Ses R.St → Prop}

theorem Story.progress (h : Story R env I D) (os : List Output) (fuel : Nat) (s : Ses R.St) (hi : I os s) :
    wp (progress R env fuel) s (fun _ s' => I os s') (fun f s' => D os s' ∧ (¬ gone f → I os s')) := by
  induction fuel generalizing s with
  | zero => exact ⟨h.weak _ _ hi, fun _ => hi⟩
  | succ fuel ih =>
    unfold E13.progress
    simp only [bind_eq, pure_eq, wp_bind, wp_get]
    refine wp_mono (h.step os s hi) ?_ (fun _ _ g => g.2)
    intro new s' ⟨e, g⟩
    split
    · next e2 =>
      have : ({ s' with st := new } : Ses R.St) = s' := by rw [← e2, ← e]
      rw [this] at g
      exact g
    · exact ih _ g

theorem Story.call (h : Story R env I D) (os : List Output) (c : Call) (s : Ses R.St) (hi : I os s) :
    D (os ++ outputs [(call R env s c).1]) (call R env s c).2 ∧
      (¬ Stops (call R env s c).1 → I (os ++ outputs [(call R env s c).1]) (call R env s c).2) := by
  -- a call other than a poll
  have key : ∀ (m : P R.St Unit),
      wp m s (fun _ s' => I os s') (fun f s' => D os s' ∧ (¬ gone f → I os s')) →
      D (os ++ outputs [.res (toApi (m s).1)]) (m s).2 ∧
      (¬ Stops (.res (toApi (m s).1)) → I (os ++ outputs [.res (toApi (m s).1)]) (m s).2) := by
    intro m hm
    have e : os ++ outputs [.res (toApi (m s).1)] = os := by simp [outputs]
    rw [e]
    unfold wp at hm
    split at hm
    · next a s' he => rw [he]; exact ⟨h.weak _ _ hm, fun _ => hm⟩
    · next f s' he =>
      rw [he]
      refine ⟨hm.1, fun hs => hm.2 ?_⟩
      cases f <;> simp [gone, Stops, toApi] at hs ⊢
  cases c with
  | packet p =>
    refine key (handlePacketM R env p) ?_
    unfold handlePacketM
    simp only [bind_eq, wp_bind, wp_get]
    have step : ∀ s1, I os s1 → wp (onEng (parsePacket env.toEnv p) : P R.St Unit) s1
        (fun _ s2 => wp (E13.progress R env progressFuel) s2
          (fun _ s3 => wp (M.modify fun s : Ses R.St =>
            if (s.autoMode && !R.first s.st) = true then { s with retained := [], autoMode := false } else s) s3
            (fun _ s' => I os s') (fun f s' => D os s' ∧ (¬ gone f → I os s')))
          (fun f s' => D os s' ∧ (¬ gone f → I os s')))
        (fun f s' => D os s' ∧ (¬ gone f → I os s')) := by
      intro s1 h1
      rw [wp_onEng]
      have h2 := h.eng os s1 _ h1 (parsePacket_grow env.toEnv p s1.eng) (parsePacket_hushed env.toEnv p s1.eng)
      refine wp_mono (to_wp (R := fun e => e = (parsePacket env.toEnv p s1.eng).2) rfl) ?_ ?_
      · intro _ e he
        subst he
        refine wp_mono (h.progress os _ _ h2) ?_ (fun _ _ g => g)
        intro _ s3 h3
        rw [wp_modify]
        split
        · exact h.keep os s3 [] false h3 (fun e => by cases e)
        · exact h3
      · intro f e he
        subst he
        exact ⟨h.weak _ _ h2, fun _ => h2⟩
    split
    · split
      · rw [wp_bind, wp_fatal]; exact ⟨h.weak _ _ hi, fun _ => hi⟩
      · rw [wp_bind, wp_modify, wp_bind]
        refine wp_mono (step _ (h.keep os s (s.retained ++ [p]) s.autoMode hi id)) ?_ (fun _ _ g => g)
        intro _ _ g; rw [wp_bind]; exact g
    · rw [wp_bind]
      refine wp_mono (step _ hi) ?_ (fun _ _ g => g)
      intro _ _ g; rw [wp_bind]; exact g
  | timeout n =>
    refine key (handleTimeoutM R env n) ?_
    unfold handleTimeoutM
    simp only [bind_eq, wp_bind, wp_modify]
    rw [wp_onEng]
    have h1 := h.note os s n hi
    have h2 := h.eng os _ _ h1 (handleTimeout_grow env.toEnv n (noteTime R env n s).eng)
      (handleTimeout_hushed env.toEnv n (noteTime R env n s).eng)
    refine wp_mono (to_wp (R := fun e => e = (handleTimeout env.toEnv n (noteTime R env n s).eng).2) rfl) ?_ ?_
    · intro _ e he
      subst he
      exact h.progress os _ _ h2
    · intro f e he
      subst he
      exact ⟨h.weak _ _ h2, fun _ => h2⟩
  | send d =>
    refine key (sendM R env d) ?_
    unfold sendM
    simp only [bind_eq, wp_bind, wp_get]
    split
    · exact ⟨h.weak _ _ hi, fun _ => hi⟩
    · split
      · exact h.queue os s _ hi
      · unfold sendApp
        rw [wp_onEng]
        have h2 := h.eng os _ _ hi (createCipher_grow env.toEnv ctAppData s.eng.appEpoch false d s.eng)
          (createCipher_hushed env.toEnv ctAppData s.eng.appEpoch false d s.eng)
        refine wp_mono (to_wp (R := fun e => e = (createCipher env.toEnv ctAppData s.eng.appEpoch false d s.eng).2)
          rfl) ?_ ?_
        · intro _ e he; subst he; exact h2
        · intro f e he; subst he; exact ⟨h.weak _ _ h2, fun _ => h2⟩
  | close =>
    refine key (closeM R env) ?_
    unfold closeM
    simp only [bind_eq, pure_eq, wp_bind, wp_get]
    split
    · exact hi
    · next hne =>
      split
      · next ha =>
        rw [wp_bind]
        rw [wp_onEng']
        rw [wp_modify]
        exact h.closed os { s with eng := abort s.eng } ha (fun e => hne (.inr e))
          (h.eng os s _ hi (abort_grow _) (abort_hushed _))
      · next ha =>
        have ha : s.st = R.app := Decidable.not_not.mp ha
        rw [wp_bind]
        rw [wp_onEng]
        have h2 := h.eng os _ _ hi (createCipher_grow env.toEnv ctAlert s.eng.appEpoch false [1, 0] s.eng)
          (createCipher_hushed env.toEnv ctAlert s.eng.appEpoch false [1, 0] s.eng)
        refine wp_mono (to_wp (R := fun e => e = (createCipher env.toEnv ctAlert s.eng.appEpoch false [1, 0] s.eng).2)
          rfl) ?_ ?_
        · intro _ e he
          subst he
          rw [wp_bind]
          rw [wp_onEng']
          rw [wp_modify]
          have h3 := h.eng os _ _ h2 (cancelFlights_grow _) (cancelFlights_hushed _)
          exact h.half os _ ha h3
        · intro f e he; subst he; exact ⟨h.weak _ _ h2, fun _ => h2⟩
  | poll n =>
    have h2 := h.poll os s n hi
    exact ⟨h.weak _ _ h2, fun _ => h2⟩

theorem Story.run (h : Story R env I D) (os : List Output) (cs : List Call) (s : Ses R.St) (hi : I os s) :
    D (os ++ outputs (run R env s cs).1) (run R env s cs).2 ∧
      ((∀ r ∈ (run R env s cs).1, ¬ Stops r) →
        I (os ++ outputs (run R env s cs).1) (run R env s cs).2) := by
  induction cs generalizing os s with
  | nil =>
    have e : os ++ outputs (E13.run R env s []).1 = os := by simp [E13.run, outputs]
    rw [e]
    exact ⟨h.weak _ _ hi, fun _ => hi⟩
  | cons c cs ih =>
    rw [run_snd, run_fst]
    obtain ⟨h1, h2⟩ := h.call os c s hi
    split
    · next hs =>
      exact ⟨h1, fun g => absurd hs (g _ (List.mem_singleton_self _))⟩
    · next hs =>
      obtain ⟨h3, h4⟩ := ih _ _ (h2 hs)
      have e : ∀ rs, os ++ outputs ((E13.call R env s c).1 :: rs) =
          os ++ outputs [(E13.call R env s c).1] ++ outputs rs := by
        intro rs
        rw [List.append_assoc, ← outputs_append]; rfl
      rw [e]
      exact ⟨h3, fun g => h4 fun r hr => g r (List.mem_cons_of_mem _ hr)⟩

end story

/-! ## Sagas -/

/-- Application data is only handed over after Connected. -/
def InOrder (os : List Output) : Prop :=
  ∀ pre d post, os = pre ++ .eng (.appData d) :: post → .connected ∈ pre

/-- Connected events already output and still to come. -/
def toldBy {St : Type} (os : List Output) (s : Ses St) : Nat :=
  os.count .connected + s.events.count .connected

/-- The handshake goes through stages, each of which says what has been established. -/
structure Saga (R : Role) (env : PEnv) (V : Ses R.St → Ses R.St → Prop) (Stage : R.St → Ses R.St → Prop)
    (Done : Ses R.St → Prop) : Prop where
  rel : SRelL V
  stage : ∀ st s s', Stage st s → V s s' → Stage st s'
  done : ∀ s s', Done s → V s s' → Done s'
  shown : ∀ st s l, Stage st s → Stage st { s with events := l }
  doneShown : ∀ s l, Done s → Done { s with events := l }
  appDone : ∀ s, Stage R.app s → Done s
  closed : ∀ st s, Stage st s → Stage R.closed s
  half : ∀ s, Stage R.app s → Stage R.halfClosed s
  halfDone : ∀ s, Stage R.halfClosed s → Done s
  step : ∀ s, s.st ≠ R.app → s.st ≠ R.halfClosed → s.st ≠ R.closed → Stage s.st s → s.eng.release = false →
    wp (R.step env s.st) s
    (fun new s' => s'.st = s.st ∧ Stage new s' ∧
      ((new = R.app ∧ s'.eng.release = true ∧
          s'.events.count .connected = s.events.count .connected + 1) ∨
        (s'.eng.release = false ∧ s'.events.count .connected = s.events.count .connected)))
    (fun f s' => s'.st = s.st ∧
      ((Stage s.st s' ∧ s'.eng.release = false ∧ s'.events.count .connected = s.events.count .connected) ∨
        (gone f ∧ s'.events.count .connected = s.events.count .connected) ∨
        (gone f ∧ s'.events.count .connected = s.events.count .connected + 1 ∧ Done s')))

/-- The rest of a role: what happens in the last three states. -/
structure Tail (R : Role) (env : PEnv) : Prop where
  app : R.step env R.app = awaitApplicationData env R.app
  half : R.step env R.halfClosed = halfClosedLocal env R.halfClosed R.closed
  closed : R.step env R.closed = M.pure R.closed
  succApp : Gives (· = R.app) (R.step env R.app)
  succHalf : Gives (fun x => x = R.halfClosed ∨ x = R.closed) (R.step env R.halfClosed)
  appHalf : R.app ≠ R.halfClosed
  appClosed : R.app ≠ R.closed
  halfClosed : R.halfClosed ≠ R.closed

theorem C13.tail (env : PEnv) : Tail C13.role env :=
  ⟨rfl, rfl, rfl, fun s a h => List.mem_singleton.mp (C13.step_succ env .awaitApplicationData s a h),
    fun s a h => (List.mem_cons.mp (C13.step_succ env .halfClosedLocal s a h)).imp id List.mem_singleton.mp,
    nofun, nofun, nofun⟩
theorem S13.tail (env : PEnv) : Tail S13.role env :=
  ⟨rfl, rfl, rfl, fun s a h => List.mem_singleton.mp (S13.step_succ env .awaitApplicationData s a h),
    fun s a h => (List.mem_cons.mp (S13.step_succ env .halfClosedLocal s a h)).imp id List.mem_singleton.mp,
    nofun, nofun, nofun⟩

/-- The invariant of a live session. -/
structure Tale (R : Role) (Stage : R.St → Ses R.St → Prop) (Done : Ses R.St → Prop) (os : List Output)
    (s : Ses R.St) : Prop where
  stage : Stage s.st s
  told : toldBy os s = if s.eng.release then 1 else 0
  last : s.eng.release = true → s.st = R.app ∨ s.st = R.halfClosed ∨ s.st = R.closed
  done : s.eng.release = true → Done s
  ordered : InOrder os

/-- What is left of it after a panic. -/
structure Told (Done : Ses St → Prop) (os : List Output) (s : Ses St) : Prop where
  told : toldBy os s ≤ 1
  done : 0 < toldBy os s → Done s
  ordered : InOrder os

theorem InOrder.snoc {os : List Output} {o : Output} (h : InOrder os)
    (ho : (∃ d, o = .eng (.appData d)) → .connected ∈ os) : InOrder (os ++ [o]) := by
  intro pre d post e
  rcases List.eq_nil_or_concat post with rfl | ⟨p, x, rfl⟩
  · obtain ⟨e1, e2⟩ := List.append_inj' e rfl
    subst e1
    exact ho ⟨d, by simpa using e2⟩
  · have e : os ++ [o] = (pre ++ .eng (.appData d) :: p) ++ [x] := by
      rw [e, List.concat_eq_append, List.append_assoc, List.cons_append]
    obtain ⟨e1, _⟩ := List.append_inj' e rfl
    exact h pre d p e1

section saga
variable {R : Role} {env : PEnv} {V : Ses R.St → Ses R.St → Prop} {Stage : R.St → Ses R.St → Prop}
  {Done : Ses R.St → Prop}

theorem Tale.ended {os : List Output} {s : Ses R.St} (t : Tale R Stage Done os s) : Told Done os s := by
  refine ⟨?_, fun h => t.done ?_, t.ordered⟩
  · rw [t.told]; split <;> omega
  · rw [t.told] at h; revert h; cases s.eng.release <;> simp

theorem toldBy_eq {os : List Output} {s s' : Ses R.St}
    (h : s'.events.count .connected = s.events.count .connected) : toldBy os s' = toldBy os s := by
  unfold toldBy; rw [h]

theorem Tale.later (g : Saga R env V Stage Done) {os : List Output} {s s' : Ses R.St}
    (t : Tale R Stage Done os s) (hv : V s s') (hs : s'.st = s.st) : Tale R Stage Done os s' := by
  have hn := g.rel.near _ _ hv
  have hr : s'.eng.release = s.eng.release := hn.grow.release
  refine ⟨hs ▸ g.stage _ _ _ t.stage hv, ?_, ?_, ?_, t.ordered⟩
  · rw [toldBy_eq hn.told, hr]; exact t.told
  · rw [hr, hs]; exact t.last
  · rw [hr]; exact fun h => g.done _ _ (t.done h) hv

theorem Tale.put (g : Saga R env V Stage Done) {os : List Output} {s : Ses R.St} {st : R.St}
    (t : Tale R Stage Done os s) (hs : Stage st s)
    (hst : s.eng.release = true → st = R.app ∨ st = R.halfClosed ∨ st = R.closed) :
    Tale R Stage Done os { s with st := st } := by
  have hv : V s { s with st := st } := g.rel.later _ _ (.mod (.mod rfl rfl rfl rfl rfl rfl rfl rfl) rfl rfl)
  exact ⟨g.stage _ _ _ hs hv, t.told, hst, fun h => g.done _ _ (t.done h) hv, t.ordered⟩

theorem poll_connected (e : E12.Event) (n : Nat) (certs : List Bytes) :
    (eventOutput e n certs = .connected ↔ e = .connected) ∧ ∀ d, eventOutput e n certs ≠ .eng (.appData d) := by
  cases e with
  | connected => exact ⟨⟨fun _ => rfl, fun _ => rfl⟩, fun _ h => nomatch h⟩
  | keyingMaterial m p => exact ⟨⟨(fun h => nomatch h), (fun h => nomatch h)⟩, fun _ h => nomatch h⟩
  | peerCert =>
    unfold eventOutput
    constructor
    · constructor
      · intro h; revert h; dsimp only; split <;> intro h
        · cases h
        · split at h <;> cases h
      · intro h; cases h
    · intro d h; revert h; dsimp only; split <;> intro h
      · cases h
      · split at h <;> cases h

theorem pollOutput_data {n now : Nat} {e : Eng} {d : Bytes} (h : (pollOutput n now e).1 = .appData d) :
    e.release = true := by
  unfold pollOutput at h
  dsimp only at h
  have hr : (purge e).release = e.release := rfl
  split at h
  · next hx => exact hr ▸ hx
  · exfalso
    revert h
    generalize purge e = e
    unfold pollRest
    dsimp only
    repeat' split
    all_goals nofun

/-- A step in one of the last states. -/
theorem Tale.frame (g : Saga R env V Stage Done) {os : List Output} {s : Ses R.St}
    (t : Tale R Stage Done os s) {m : P R.St R.St} {p : R.St → Prop} (hm : SFr Later m) (hp : Gives p m)
    (hst : ∀ x, p x → (x = R.app ∨ x = R.halfClosed ∨ x = R.closed) ∧ (Stage s.st s → Stage x s)) :
    wp m s (fun new s' => s'.st = s.st ∧ Tale R Stage Done os { s' with st := new })
    (fun f s' => s'.st = s.st ∧ Told Done os s' ∧ (¬ gone f → Tale R Stage Done os s')) := by
  refine wp_of ?_ ?_
  · intro new s' he
    obtain ⟨h1, h2⟩ := hm.lift g.rel s
    rw [he] at h1 h2
    obtain ⟨h3, h4⟩ := hst new (hp s new (by rw [he]))
    exact ⟨h2, (t.later g h1 h2).put g (g.stage _ _ _ (h4 t.stage) h1) fun _ => h3⟩
  · intro f s' he
    obtain ⟨h1, h2⟩ := hm.lift g.rel s
    rw [he] at h1 h2
    exact ⟨h2, (t.later g h1 h2).ended, fun _ => t.later g h1 h2⟩

theorem Saga.story (g : Saga R env V Stage Done) (ht : Tail R env) :
    Story R env (Tale R Stage Done) (Told Done) where
  weak _ _ t := t.ended
  eng os s e t hg _ := t.later g (g.rel.eng s e hg) rfl
  note os s n t := by
    unfold noteTime
    split
    · exact t.later g (g.rel.later _ _ (.mod (.mod rfl rfl rfl rfl rfl rfl rfl rfl) rfl rfl)) rfl
    · exact t.later g (g.rel.later _ _ (.mod ⟨rfl, rfl, rfl, rfl, rfl, rfl, rfl, .same rfl rfl rfl rfl⟩ rfl rfl)) rfl
  keep os s l b t _ := t.later g (g.rel.later _ _ (.mod (.mod rfl rfl rfl rfl rfl rfl rfl rfl) rfl rfl)) rfl
  queue os s l t := t.later g (g.rel.later _ _ (.mod (.mod rfl rfl rfl rfl rfl rfl rfl rfl) rfl rfl)) rfl
  closed os s _ _ t := t.put g (g.closed _ _ t.stage) fun _ => .inr (.inr rfl)
  half os s hs t := t.put g (g.half _ (hs ▸ t.stage)) fun _ => .inr (.inl rfl)
  step os s t := by
    by_cases h1 : s.st = R.app
    · rw [h1]
      refine wp_mono (t.frame g (ht.app ▸ app_later R.app) ht.succApp ?_)
        (fun _ _ h => h1 ▸ h) (fun _ _ h => h1 ▸ h)
      intro x hx
      exact ⟨.inl hx, fun h => by rw [hx, ← h1]; exact h⟩
    by_cases h2 : s.st = R.halfClosed
    · rw [h2]
      refine wp_mono (t.frame g (ht.half ▸ half_later _ _) ht.succHalf ?_)
        (fun _ _ h => h2 ▸ h) (fun _ _ h => h2 ▸ h)
      intro x hx
      refine ⟨.inr hx, fun h => ?_⟩
      rcases hx with rfl | rfl
      · rw [← h2]; exact h
      · exact g.closed _ _ h
    by_cases h3 : s.st = R.closed
    · rw [h3, ht.closed]
      exact ⟨h3.symm ▸ rfl, t.put g (h3 ▸ t.stage) fun _ => .inr (.inr rfl)⟩
    have hr : s.eng.release = false := by
      cases h : s.eng.release with
      | false => rfl
      | true => rcases t.last h with h | h | h <;> contradiction
    have h0 : toldBy os s = 0 := by rw [t.told, hr]; rfl
    unfold toldBy at h0
    refine wp_mono (g.step s h1 h2 h3 t.stage hr) ?_ ?_
    · intro new s' ⟨e1, e2, e3⟩
      have hv : V s' { s' with st := new } := g.rel.later _ _ (.mod (.mod rfl rfl rfl rfl rfl rfl rfl rfl) rfl rfl)
      refine ⟨e1, g.stage _ _ _ e2 hv, ?_, ?_, ?_, t.ordered⟩
      · show os.count .connected + s'.events.count .connected = if s'.eng.release then 1 else 0
        rcases e3 with ⟨_, e4, e5⟩ | ⟨e4, e5⟩ <;> rw [e4, e5] <;> simp <;> omega
      · intro hx
        rcases e3 with ⟨e4, _⟩ | ⟨e4, _⟩
        · exact .inl e4
        · rw [show s'.eng.release = true from hx] at e4; cases e4
      · intro hx
        rcases e3 with ⟨e4, _⟩ | ⟨e4, _⟩
        · exact g.done _ _ (g.appDone _ (e4 ▸ e2)) hv
        · rw [show s'.eng.release = true from hx] at e4; cases e4
    · intro f s' ⟨e1, e2⟩
      rcases e2 with ⟨e2, e3, e4⟩ | ⟨e2, e3⟩ | ⟨e2, e3, e4⟩
      · have ht : Tale R Stage Done os s' := by
          refine ⟨e1 ▸ e2, ?_, ?_, ?_, t.ordered⟩
          · unfold toldBy; rw [e4, e3]; exact h0
          · rw [e3]; nofun
          · rw [e3]; nofun
        exact ⟨e1, ht.ended, fun _ => ht⟩
      · refine ⟨e1, ⟨?_, fun h => ?_, t.ordered⟩, fun h => absurd e2 h⟩
        · unfold toldBy; omega
        · unfold toldBy at h; omega
      · refine ⟨e1, ⟨?_, fun _ => e4, t.ordered⟩, fun h => absurd e2 h⟩
        unfold toldBy; omega
  poll os s n t := by
    unfold pollM
    split
    · next e rest he =>
      have hp := poll_connected e n s.peerCerts
      have hc : toldBy (os ++ [eventOutput e n s.peerCerts]) { s with events := rest } = toldBy os s := by
        have : [eventOutput e n s.peerCerts].count .connected = if e == .connected then 1 else 0 := by
          by_cases hx : e = .connected
          · subst hx; rfl
          · rw [if_neg (by simpa using hx)]
            refine List.count_eq_zero.mpr fun h => hx (hp.1.mp (List.mem_singleton.mp h).symm)
        unfold toldBy
        rw [he, List.count_append, this, List.count_cons]
        dsimp only
        omega
      -- the certificates and the rest of the session are unchanged; only the queue of events is shorter
      refine ⟨?_, hc.trans t.told, t.last, ?_, t.ordered.snoc fun ⟨d, h⟩ => absurd h (hp.2 d)⟩
      · exact g.shown _ s rest t.stage
      · exact fun h => g.doneShown s rest (t.done h)
    · next he =>
      have hv : V s { s with eng := (pollOutput n s.lastNow s.eng).2 } :=
        g.rel.eng _ _ (pollOutput_grow n s.lastNow s.eng)
      have ht := t.later g hv rfl
      refine ⟨ht.stage, ?_, ht.last, ht.done, t.ordered.snoc fun ⟨d, h⟩ => ?_⟩
      · rw [← ht.told]
        unfold toldBy
        rw [List.count_append]
        simp
      · have hr := pollOutput_data (Output.eng.inj h)
        have h1 := t.told
        rw [hr] at h1
        unfold toldBy at h1
        rw [he] at h1
        simp at h1
        exact List.count_pos_iff.mp (by omega)

end saga

/-! ## The bodies of messages -/

section bodies
variable {env : Env} {a : Bool} {su : Option Nat} {body : Bytes} {b : Body}

theorem parseBody_clientHello (h : parseBody env a mtClientHello su body = some ([], b)) :
    ∃ x, b = .clientHello x ∧ env.parseClientHello a body = some ([], x) := by
  simp (decide := true) only [parseBody, reduceIte, Option.map_eq_some_iff] at h
  obtain ⟨⟨r, x⟩, h1, h2⟩ := h
  cases h2
  exact ⟨x, rfl, h1⟩

theorem parseBody_serverHello (h : parseBody env a mtServerHello su body = some ([], b)) :
    ∃ x, b = .serverHello x ∧ env.parseServerHello body = some ([], x) := by
  simp (decide := true) only [parseBody, reduceIte, Option.map_eq_some_iff] at h
  obtain ⟨⟨r, x⟩, h1, h2⟩ := h
  cases h2
  exact ⟨x, rfl, h1⟩

theorem parseBody_certificate (h : parseBody env a mtCertificate su body = some ([], b)) :
    ∃ x, b = .certificate x.1 x.2 ∧ env.parseCertificate body = some ([], x) := by
  simp (decide := true) only [parseBody, reduceIte, Option.map_eq_some_iff] at h
  obtain ⟨⟨r, x⟩, h1, h2⟩ := h
  cases h2
  exact ⟨x, rfl, h1⟩

theorem parseBody_certificateVerify (h : parseBody env a mtCertificateVerify su body = some ([], b)) :
    ∃ x, b = .certificateVerify x.1 x.2 ∧ env.parseCertificateVerify body = some ([], x) := by
  simp (decide := true) only [parseBody, reduceIte, Option.map_eq_some_iff] at h
  obtain ⟨⟨r, x⟩, h1, h2⟩ := h
  cases h2
  exact ⟨x, rfl, h1⟩

theorem parseBody_finished (h : parseBody env a mtFinished su body = some ([], b)) :
    ∃ cs x, su = some cs ∧ b = .finished x ∧ env.parseFinished cs body = some ([], x) := by
  simp (decide := true) only [parseBody, reduceIte, Option.bind_eq_some_iff, Option.map_eq_some_iff] at h
  obtain ⟨cs, hcs, ⟨r, x⟩, h1, h2⟩ := h
  cases h2
  exact ⟨cs, x, hcs, rfl, h1⟩

end bodies

/-! ## Pieces of the steps -/

theorem advancePeerSeq_ok (e : Eng) : wp advancePeerSeq e (fun _ e' => Grow e e') (fun f _ => gone f) := by
  have hg := advancePeerSeq_grow e
  refine wp_of (fun _ e' he => by rw [he] at hg; exact hg) ?_
  intro f e' he
  unfold advancePeerSeq at he
  split at he
  · cases he; trivial
  · cases he

section pieces
variable {St : Type} {env : PEnv}

/-- A successful `installHandshake`. -/
theorem installHandshake_ok (shared : Bytes) (s : Ses St) : wp (installHandshake env shared) s
    (fun _ s' => ∃ suite c sv hs e, s.eng.suite = some suite ∧
      env.deriveHs suite shared s.eng.transcript = some (c, sv, hs) ∧ Grow s.eng e ∧
      s' = { s with hsSecret := some hs, serverHs := some sv, clientHs := some c, eng := e })
    (fun _ _ => True) := by
  unfold installHandshake
  simp only [bind_eq, wp_bind, wp_get]
  refine wp_orPanic_of (fun suite hs => ?_) trivial
  refine wp_orFatal_of (fun x hx => ?_) trivial
  rw [wp_modify, wp_onEng]
  refine wp_of ?_ (fun _ _ _ => trivial)
  intro _ e he
  refine ⟨suite, x.1, x.2.1, x.2.2, e, hs, hx, ?_, rfl⟩
  have := installHandshakeKeys_grow env.toEnv x.1 x.2.1 s.eng
  rw [he] at this
  exact this

/-- What the states before the peer's first full hello leave alone; `K` says which key exchanges may be
started. -/
structure Early (K : Nat × Nat → Prop) (s s' : Ses St) : Prop where
  peerCerts : s'.peerCerts = s.peerCerts
  srtp : s'.srtp = s.srtp
  authRequested : s'.authRequested = s.authRequested
  told : s'.events.count .connected = s.events.count .connected
  release : s'.eng.release = s.eng.release
  kx : ∀ x, s'.kx = some x → s.kx = some x ∨ K x

variable {K : Nat × Nat → Prop}

theorem Early.rel : SRel (Early (St := St) K) where
  refl _ := ⟨rfl, rfl, rfl, rfl, rfl, fun _ h => .inl h⟩
  trans _ _ _ h g := ⟨g.1.trans h.1, g.2.trans h.2, g.3.trans h.3, g.4.trans h.4, g.5.trans h.5,
    fun x hx => (g.6 x hx).elim (h.6 x) .inr⟩
  eng _ _ h := ⟨rfl, rfl, rfl, rfl, h.release, fun _ h => .inl h⟩

theorem Early.mod {s s' : Ses St} (h1 : s'.peerCerts = s.peerCerts) (h2 : s'.srtp = s.srtp)
    (h3 : s'.authRequested = s.authRequested) (h4 : s'.events = s.events) (h5 : s'.eng = s.eng)
    (h6 : s'.kx = s.kx) : Early K s s' :=
  ⟨h1, h2, h3, by rw [h4], by rw [h5], fun x h => .inl (h6 ▸ h)⟩

theorem Early.modNone {s s' : Ses St} (h1 : s'.peerCerts = s.peerCerts) (h2 : s'.srtp = s.srtp)
    (h3 : s'.authRequested = s.authRequested) (h4 : s'.events = s.events) (h5 : s'.eng = s.eng)
    (h6 : s'.kx = none) : Early K s s' :=
  ⟨h1, h2, h3, by rw [h4], by rw [h5], fun x h => by rw [h6] at h; cases h⟩

theorem setSuite_early (n : Nat) : SFr (Early K) (setSuite n : P St Unit) :=
  fun _ => ⟨⟨rfl, rfl, rfl, rfl, rfl, fun _ h => .inl h⟩, rfl⟩

theorem onEng'_early {f : Eng → Eng} (h : ∀ e, (f e).release = e.release) :
    SFr (Early K) (onEng' f : P St Unit) :=
  fun s => ⟨⟨rfl, rfl, rfl, rfl, h s.eng, fun _ h => .inl h⟩, rfl⟩

theorem replaceTranscript_early (n : Nat) : SFr (Early K) (onEng (replaceTranscript env.toEnv n) : P St Unit) := by
  intro s
  refine ⟨⟨rfl, rfl, rfl, rfl, ?_, fun _ h => .inl h⟩, rfl⟩
  show (replaceTranscript env.toEnv n s.eng).2.release = s.eng.release
  unfold replaceTranscript
  repeat' split
  all_goals rfl

theorem installHandshake_early (x : Bytes) : SFr (Early K) (installHandshake env x : P St Unit) := by
  have hf := Early.rel (St := St) (K := K)
  unfold installHandshake; simp only [bind_eq]; sfr hf
  exact .modify (fun _ => .mod rfl rfl rfl rfl rfl rfl) fun _ => rfl

/-- `sfr` for `Early`. -/
macro "early" hf:ident : tactic => `(tactic|
  ((sfr $hf) <;> first
    | exact setSuite_early _
    | exact replaceTranscript_early _
    | exact installHandshake_early _
    | exact SFr.modify (fun _ => Early.mod rfl rfl rfl rfl rfl rfl) fun _ => rfl
    | exact SFr.modify (fun _ => Early.modNone rfl rfl rfl rfl rfl rfl) fun _ => rfl
    | exact onEng'_early fun _ => rfl))

end pieces

namespace C13
variable {env : PEnv} {K : Nat × Nat → Prop}

theorem retryExtensions_early (l : List (Nat × Bytes)) : SFr (Early K) (retryExtensions env l) := by
  have hf := Early.rel (St := CSt) (K := K)
  induction l with
  | nil => exact .pure hf _
  | cons x rest ih =>
    obtain ⟨t, d⟩ := x
    unfold retryExtensions
    simp only [bind_eq]
    early hf

theorem helloRetry_early (n : Nat) (h : ServerHello) : SFr (Early K) (helloRetry env n h) := by
  have hf := Early.rel (St := CSt) (K := K)
  have h1 := retryExtensions_early (env := env) (K := K) (h.exts.getD [])
  unfold helloRetry
  simp only [bind_eq, pure_eq]
  early hf

theorem serverHello_early (h : ServerHello) : SFr (Early K) (serverHello env h) := by
  have hf := Early.rel (St := CSt) (K := K)
  unfold serverHello
  simp only [bind_eq, pure_eq]
  early hf

theorem awaitServerHello_early : SFr (Early K) (awaitServerHello env) := by
  have hf := Early.rel (St := CSt) (K := K)
  have h1 := nextHandshake_sfr (env := env) hf mtServerHello
  unfold awaitServerHello
  simp only [bind_eq, pure_eq]
  sfr hf
  · exact helloRetry_early _ _
  · exact serverHello_early _

theorem sendClientHello_early : SFr (Early fun x => x.2 ∈ env.groups ∧ ∃ pub, env.kxStart x.1 x.2 = some pub)
    (sendClientHello env) := by
  have hf := Early.rel (St := CSt) (K := fun x => x.2 ∈ env.groups ∧ ∃ pub, env.kxStart x.1 x.2 = some pub)
  intro s0
  refine of_wp (fun s' => Early _ s0 s' ∧ s'.st = s0.st) ?_
  unfold sendClientHello
  simp only [bind_eq, pure_eq, wp_bind, wp_get]
  refine wp_orPanic_of (fun random _ => ?_) ⟨hf.refl _, rfl⟩
  rw [wp_onEng']
  have e1 : Early (fun x => x.2 ∈ env.groups ∧ ∃ pub, env.kxStart x.1 x.2 = some pub) s0
    { s0 with eng := flightBegin env.toEnv s0.eng } := hf.eng _ _ (flightBegin_grow _ _)
  refine wp_orFatal_of (fun group _ => ?_) ⟨e1, rfl⟩
  refine wp_check_of (fun hg => ?_) ⟨e1, rfl⟩
  rw [wp_drawTick]
  have e2 := hf.trans _ _ _ e1 (hf.eng { s0 with eng := flightBegin env.toEnv s0.eng }
    { flightBegin env.toEnv s0.eng with tick := (flightBegin env.toEnv s0.eng).tick + 1 }
    (.same rfl rfl rfl rfl))
  refine wp_orFatal_of (fun pub hp => ?_) ⟨e2, rfl⟩
  rw [wp_modify]
  have key : ∀ s1 s2 : Ses CSt, Early (fun x => x.2 ∈ env.groups ∧ ∃ pub, env.kxStart x.1 x.2 = some pub) s0 s1 →
      s2 = { s1 with kx := some ((flightBegin env.toEnv s0.eng).tick, group) } →
      Early (fun x => x.2 ∈ env.groups ∧ ∃ pub, env.kxStart x.1 x.2 = some pub) s0 s2 := by
    intro s1 s2 h1 h2
    subst h2
    refine hf.trans _ _ _ h1 ⟨rfl, rfl, rfl, rfl, rfl, fun x hx => ?_⟩
    cases hx
    exact .inr ⟨by simpa using hg, pub, hp⟩
  have e3 := key _ _ e2 rfl
  refine wp_mono ((SFr.onEng hf (createHandshake_grow env.toEnv _ _)).wp _) ?_ ?_
  · intro _ s' h; exact ⟨hf.trans _ _ _ e3 h.1, h.2⟩
  · intro _ s' h; exact ⟨hf.trans _ _ _ e3 h.1, h.2⟩

end C13
end Verif.E13

import Verif.Lemmas.Rule12
import Verif.Lemmas.Tx12
import Verif.Model.Client12
import Verif.Model.Server12
/-!
# Executions from the start of a DTLS 1.2 connection
-/
namespace Verif.E12
open Verif Wire Window Timer Aead M

/-- How a connection begins: as a client, as a client taking over from version auto-sensing, or as a
server. -/
inductive Start (env : PEnv) (cfg : Cfg) : (R : Role) → Ses R.St → Prop
  | client (now : Nat) : Start env cfg C12.role (C12.start env cfg now)
  | hybrid (random fragment : Bytes) (now : Nat) :
      Start env cfg C12.role (C12.startHybrid env cfg random fragment now)
  | server (now : Nat) : Start env cfg S12.role (S12.start env cfg now)

theorem Walk.rebase {St : Type} {env : PEnv} {ok : Bytes → Prop} {K : St → Option Keys → Option Bytes → Prop}
    {e0 : Eng} {s : Ses St} (h : Walk env ok K e0 s) : Walk env ok K s.eng s := ⟨.refl _, h.queued, h.keys⟩

/-- Next to `J`, a property of outputs and engine that survives engine steps and polls. -/
theorem HStable.also {R : Role} {env : PEnv} {ok : Bytes → Prop} {K : R.St → Option Keys → Option Bytes → Prop}
    {e0 : Eng} {J : List Output → Ses R.St → Prop} {P : List Output → Eng → Prop} (k : KeyRule R env ok K)
    (h : HStable R env ok (Walk env ok K e0) J)
    (hs : ∀ os e e', Steps env.toEnv ok e e' → P os e → P os e')
    (hp : ∀ os s n, Walk env ok K e0 s → J os s → P os s.eng →
      P (os ++ [(pollM R n s).1]) (pollM R n s).2.eng) :
    HStable R env ok (Walk env ok K e0) (fun os s => J os s ∧ P os s.eng) where
  packet os s p hi hj := ⟨h.packet os s p hi hj.1,
    hs _ _ _ ((k.stable s.eng).packet s p hi.rebase).steps hj.2⟩
  note os s n hi hj := ⟨h.note os s n hi hj.1, hs _ _ _ ((k.stable s.eng).note s n hi.rebase).steps hj.2⟩
  timeout os s n hi hj := ⟨h.timeout os s n hi hj.1,
    hs _ _ _ ((k.stable s.eng).timeout s n hi.rebase).steps hj.2⟩
  step os s hi hj := by
    refine wp_mono (wp_and ((k.stable s.eng).step s hi.rebase) (h.step os s hi hj.1)) ?_ ?_
    · rintro new s' ⟨⟨_, h1⟩, h2⟩
      exact ⟨h2, hs _ _ _ h1.steps hj.2⟩
    · rintro _ s' ⟨h1, h2⟩
      exact ⟨h2, hs _ _ _ h1.steps hj.2⟩
  send os s d hd hi hj := ⟨h.send os s d hd hi hj.1,
    hs _ _ _ ((k.stable s.eng).send s d hd hi.rebase).steps hj.2⟩
  close os s hi hj := ⟨h.close os s hi hj.1, hs _ _ _ ((k.stable s.eng).close s hi.rebase).steps hj.2⟩
  poll os s n hi hj := ⟨h.poll os s n hi hj.1, hp os s n hi hj.1 hj.2⟩

/-- Calls in two parts. -/
theorem run_append (R : Role) (env : PEnv) (s : Ses R.St) (a b : List Call) :
    run R env s (a ++ b) = run R env s a ∨
    run R env s (a ++ b) = ((run R env s a).1 ++ (run R env (run R env s a).2 b).1,
      (run R env (run R env s a).2 b).2) := by
  induction a generalizing s with
  | nil => exact .inr rfl
  | cons c a ih =>
    show run R env s (c :: (a ++ b)) = _ ∨ run R env s (c :: (a ++ b)) = _
    have hc : ∀ l, run R env s (c :: l) =
        if (call R env s c).1 = .res .panic ∨ (call R env s c).1 = .res .diverge ∨ (call R env s c).1 = .out .panic
        then ([(call R env s c).1], (call R env s c).2)
        else ((call R env s c).1 :: (run R env (call R env s c).2 l).1, (run R env (call R env s c).2 l).2) :=
      fun _ => rfl
    rw [hc, hc a]
    split
    · exact .inl rfl
    · rcases ih (call R env s c).2 with h | h
      · exact .inl (by rw [h])
      · exact .inr (by rw [h]; rfl)

namespace Start
variable {env : PEnv} {cfg : Cfg} {R : Role} {s0 : Ses R.St} {ok : Bytes → Prop}

/-- The invariant of every execution that says that the engine makes steps. -/
theorem rule (h : Start env cfg R s0) (h1 : ok [1]) (h2 : ok [1, 0]) :
    ∃ K, KeyRule R env ok K ∧ Walk env ok K s0.eng s0 := by
  cases h with
  | client now =>
    exact ⟨_, C12.keyRule h1 h2, .refl _, (fun _ hd => by cases hd), .inr (.inr (.inl ⟨rfl, rfl⟩))⟩
  | hybrid random fragment now =>
    exact ⟨_, C12.keyRule h1 h2, .refl _, (fun _ hd => by cases hd), .inr (.inr (.inl ⟨rfl, rfl⟩))⟩
  | server now =>
    exact ⟨_, S12.keyRule h1 h2, .refl _, (fun _ hd => by cases hd), .inr (.inr ⟨rfl, rfl⟩)⟩

theorem walk (h : Start env cfg R s0) (h1 : ok [1]) (h2 : ok [1, 0]) :
    ∃ I : Ses R.St → Prop, Stable R env ok I ∧ I s0 ∧ ∀ s, I s → Steps env.toEnv ok s0.eng s.eng := by
  obtain ⟨K, hk, hw⟩ := h.rule h1 h2
  exact ⟨_, hk.stable _, hw, fun _ h => h.steps⟩

/-- Steps from a state on the way. -/
theorem between (h : Start env cfg R s0) (a b : List Call) :
    Steps env.toEnv (fun _ => True) (run R env s0 a).2.eng (run R env s0 (a ++ b)).2.eng := by
  obtain ⟨K, hk, hw⟩ := h.rule (ok := fun _ => True) trivial trivial
  have h1 := (hk.stable s0.eng).run s0 a (fun _ _ => trivial) hw
  rcases run_append R env s0 a b with g | g
  · rw [g]; exact .refl _
  · rw [g]
    exact ((hk.stable _).run _ b (fun _ _ => trivial) h1.rebase).steps

theorem steps (h : Start env cfg R s0) (h1 : ok [1]) (h2 : ok [1, 0]) (cs : List Call)
    (hc : ∀ d, .send d ∈ cs → ok d) : Steps env.toEnv ok s0.eng (run R env s0 cs).2.eng := by
  obtain ⟨I, hI, h0, hs⟩ := h.walk h1 h2
  exact hs _ (hI.run s0 cs hc h0)

/-- Without a condition on the data sent. -/
theorem steps' (h : Start env cfg R s0) (cs : List Call) :
    Steps env.toEnv (fun _ => True) s0.eng (run R env s0 cs).2.eng :=
  h.steps trivial trivial cs fun _ _ => trivial

/-- Keys are only installed once there is a cipher suite. -/
theorem suite_of_keys (h : Start env cfg R s0) (cs : List Call)
    (hk : (run R env s0 cs).2.eng.keys ≠ none) : (run R env s0 cs).2.eng.suite ≠ none := by
  have h0 : s0.eng.keys ≠ none → s0.eng.suite ≠ none := by cases h <;> (intro h; exact absurd rfl h)
  refine Star.invariant (R := Step env.toEnv fun _ => True)
    (I := fun e => e.keys ≠ none → e.suite ≠ none) ?_ (h.steps' cs) h0 hk
  intro a b hs ha
  cases hs with
  | core g => rw [(Core.keep g).keys, (Core.keep g).suite]; exact ha
  | suite cs g => intro g'; exact absurd (by rw [← g]; unfold setCipherSuite; split <;> rfl) g'
  | keys k g gs => obtain ⟨_, _, _, _, gs, _⟩ := gs; exact fun _ => by simp [gs]

/-- A connected session has keys. -/
theorem app_keys (h : Start env cfg R s0) (cs : List Call) (ha : (run R env s0 cs).2.st = R.app) :
    (run R env s0 cs).2.eng.keys ≠ none := by
  obtain ⟨K, hk, hw⟩ := h.rule (ok := fun _ => True) trivial trivial
  have h1 := (hk.stable s0.eng).run s0 cs (fun _ _ => trivial) hw
  have := h1.keys
  rw [ha] at this
  exact hk.app _ _ this

theorem rx0 (h : Start env cfg R s0) : RxInv s0.eng := by
  cases h with
  | client now => exact rxInv_new _ _ _
  | hybrid random fragment now =>
    refine ⟨rep_new, by simp [C12.startHybrid, Ses.start, Eng.new, openedSeqs],
      by simp [C12.startHybrid, Ses.start, Eng.new],
      by simp [C12.startHybrid, Ses.start, Eng.new, deliveredSeqs, liveSeqs],
      by simp [C12.startHybrid, Ses.start, Eng.new], by simp [C12.startHybrid, Ses.start, Eng.new]⟩
  | server now => exact rxInv_new _ _ _

theorem log0 (h : Start env cfg R s0) : s0.eng.log = [] := by cases h <;> rfl
theorem tx0 (h : Start env cfg R s0) : s0.eng.tx = [] := by cases h <;> rfl
theorem saved0 (h : Start env cfg R s0) : s0.eng.saved = [] := by cases h <;> rfl
theorem cfg0 (h : Start env cfg R s0) : s0.eng.cfg = cfg := by cases h <;> rfl
theorem suite0 (h : Start env cfg R s0) : s0.eng.suite = none := by cases h <;> rfl
theorem minProt0 (h : Start env cfg R s0) : s0.eng.minProt = 0 := by cases h <;> rfl
theorem peerSeq0 (h : Start env cfg R s0) : s0.eng.peerSeq = 0 := by cases h <;> rfl

theorem rxInv (h : Start env cfg R s0) (hd : DecShort env.toEnv) (cs : List Call) :
    RxInv (run R env s0 cs).2.eng := (h.steps' cs).rxInv hd h.rx0

/-- The states after change_cipher_spec. -/
theorem post (h : Start env cfg R s0) : ∃ p : R.St → Bool, ShowRule R env p := by
  cases h with
  | client now => exact ⟨_, C12.showRule⟩
  | hybrid random fragment now => exact ⟨_, C12.showRule⟩
  | server now => exact ⟨_, S12.showRule⟩

theorem hist0 (h : Start env cfg R s0) : ∃ p, ShowRule R env p ∧ Hist R p [] s0 := by
  cases h with
  | client now =>
    refine ⟨_, C12.showRule, rfl, rfl, nofun, nofun, nofun, nofun, by simp, rfl, nofun, ?_⟩
    intro r hr; simp [shown, C12.start, Ses.start, Eng.new] at hr
  | hybrid random fragment now =>
    refine ⟨_, C12.showRule, rfl, rfl, nofun, nofun, nofun, nofun, by simp, rfl, nofun, ?_⟩
    intro r hr; simp [shown, C12.startHybrid, Ses.start, Eng.new] at hr
  | server now =>
    refine ⟨_, S12.showRule, rfl, rfl, nofun, nofun, nofun, nofun, by simp, rfl, nofun, ?_⟩
    intro r hr; simp [shown, S12.start, Ses.start, Eng.new] at hr

/-- A property of outputs and engine that survives engine steps and polls holds at the end. -/
theorem induct (h : Start env cfg R s0) (hd : DecShort env.toEnv) {P : List Output → Eng → Prop}
    (h0 : P [] s0.eng)
    (hs : ∀ os e e', Steps env.toEnv (fun _ => True) e e' → P os e → P os e')
    (hp : ∀ os (s : Ses R.St) n p, RxInv s.eng → Hist R p os s → P os s.eng →
      P (os ++ [(pollM R n s).1]) (pollM R n s).2.eng) (cs : List Call) :
    P (outputs (run R env s0 cs).1) (run R env s0 cs).2.eng := by
  obtain ⟨K, hk, hw⟩ := h.rule (ok := fun _ => True) trivial trivial
  have hr0 := h.rx0
  obtain ⟨p, hp1, hp2⟩ := h.hist0
  have hx : ∀ s, Walk env (fun _ => True) K s0.eng s → RxInv s.eng := fun s hs' => hs'.steps.rxInv hd hr0
  have := HStable.run (hk.stable s0.eng)
    (HStable.also (P := P) hk (hist_stable hp1 (ok := fun _ => True) hx) hs
      fun os s n hi hj hP => hp os s n p (hx s hi) hj hP) [] s0 cs (fun _ _ => trivial) hw ⟨hp2, h0⟩
  simpa using this.2

theorem hist (h : Start env cfg R s0) (hd : DecShort env.toEnv) (cs : List Call) :
    ∃ p, Hist R p (outputs (run R env s0 cs).1) (run R env s0 cs).2 := by
  obtain ⟨K, hk, hw⟩ := h.rule (ok := fun _ => True) trivial trivial
  have hr0 := h.rx0
  obtain ⟨p, hp1, hp2⟩ := h.hist0
  have := HStable.run (hk.stable s0.eng) (hist_stable hp1 (ok := fun _ => True)
    fun s (hs' : Walk env (fun _ => True) K s0.eng s) => hs'.steps.rxInv hd hr0) [] s0 cs
    (fun _ _ => trivial) hw hp2
  exact ⟨p, by simpa using this⟩

end Start
end Verif.E12

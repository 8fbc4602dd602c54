import Verif.Lemmas.NoPanic13
/-!
# C22, a DTLS 1.3 session during the handshake and after it

A session whose first call is `handle_timeout`, as the documentation of the crate asks, and that has
answered no call with an error. Whatever datagrams then arrive, in whatever order and with whatever
contents, no call panics and every call returns; with one exception, the buffer of twelve saved fragments
of a flight (`Frag13.big_message_panics`). Once connected, the counters must have room (`Roomy`).
-/
namespace Verif.Props.NoPanic13
open Verif Wire E13
open Verif.E12 (Call Ret SearchOk)
open Verif.Props.Safe13 (Roomy roomy Roomy.of released_fine After demo_search demo_suites)

section
variable {R : Role} {env : PEnv} {cfg : Cfg} {s0 : Ses R.St}

/-- No call so far was answered with an error. -/
def Smooth (rs : List Ret) : Prop := ∀ x, Ret.res x ∈ rs → x = .ok

theorem run_one (s : Ses R.St) (c : Call) : run R env s [c] = ([(call R env s c).1], (call R env s c).2) := by
  unfold run
  dsimp only
  split <;> rfl

/-- The invariant along a run. -/
theorem smooth_inv (h : Start env cfg R s0) (hc : Crypto env) {p : Plan R env} (h0 : ¬ Done R s0.st)
    (hp : ∀ n, p.good s0.st (noteTime R env n s0)) (n : Nat) (l : List Call)
    (hs : Smooth (run R env s0 (.timeout n :: l.reverse)).1) : p.Inv (run R env s0 (.timeout n :: l.reverse)).2 := by
  induction l with
  | nil =>
    obtain ⟨k, ho⟩ := h.roleOk
    rw [List.reverse_nil, run_one] at hs ⊢
    have := (answer (p.timeout h s0 n h0 (hp n))).2 fun x hx => hs x (List.mem_singleton.mpr hx.symm)
    rcases this with ⟨h1, h2⟩ | h1
    · exact ⟨fun _ => h2, fun hcl => absurd (.inr (.inr hcl)) h1⟩
    · exact ⟨fun hn => absurd (.inl h1) hn, fun hcl => absurd (h1.symm.trans hcl) ho.appClosed⟩
  | cons c l ih =>
    have hprov := h.prov (.timeout n :: (c :: l).reverse)
    rw [List.reverse_cons, ← List.cons_append] at hs hprov ⊢
    rcases run_append R env s0 (.timeout n :: l.reverse) [c] with he | he
    · rw [he] at hs ⊢
      exact ih hs
    · rw [he, run_one] at hs hprov ⊢
      have hi := ih fun x hx => hs x (List.mem_append_left _ hx)
      exact p.next hc h _ c hi hprov fun x hx => hs x (List.mem_append_right _ (List.mem_singleton.mpr hx.symm))

/-- No call panics or runs on, during the handshake and after it. -/
theorem no_panic_partial (h : Start env cfg R s0) (hc : Crypto env) (n : Nat) (cs : List Call) (c : Call) :
    let r := run R env s0 (.timeout n :: cs)
    Smooth r.1 → (r.2.eng.release = true → Roomy r.2.eng) →
    (call R env r.2 c).1 ≠ .res .diverge ∧
      ((call R env r.2 c).1 = .res .panic → 12 ≤ (call R env r.2 c).2.eng.saved.length) := by
  intro r hs hr
  obtain ⟨p, h0, hp⟩ := h.plan hc
  have hi : p.Inv r.2 := by
    have := smooth_inv h hc h0 hp n cs.reverse
    rw [List.reverse_reverse] at this
    exact this hs
  have hfine : r.2.eng.release = true → After R r.2.st → (call R env r.2 c).1 ≠ .res .diverge ∧
      ((call R env r.2 c).1 = .res .panic → 12 ≤ (call R env r.2 c).2.eng.saved.length) := by
    intro h1 h2
    have := released_fine h hc.suites hc.search (.timeout n :: cs) c h1 h2 (hr h1)
    exact ⟨this.2, fun h => absurd h this.1⟩
  by_cases hst : Done R r.2.st
  · by_cases hrel : r.2.eng.release = true
    · exact hfine hrel hst
    · rcases hst with ha | ha | ha
      · exact absurd (rel_of h _ (.inl ha)) hrel
      · exact absurd (rel_of h _ (.inr ha)) hrel
      · rcases hi.closed ha with hs | hs
        · exact absurd hs hrel
        · exact (shut_call hc h r.2 ha hs c).1
  · by_cases hpoll : ∃ m, c = .poll m
    · obtain ⟨m, rfl⟩ := hpoll
      exact ⟨nofun, nofun⟩
    · refine (p.call hc h r.2 hst (hi.good hst) c ?_).1
      obtain ⟨k, ho⟩ := h.roleOk
      exact prov_keep (call_rx ho r.2 c fun m hm => hpoll ⟨m, hm⟩) (h.prov _)

end

/-! ## A concrete case: the demo server in the middle of the handshake -/

theorem demo_crypto : Crypto Demo.plainEnv where
  suites := demo_suites
  search := demo_search
  hmac k d := nofun
  share n g pub h := by cases h; show 1 < 2 ^ 32; decide

/-- `Smooth` as a test. -/
def smooth (rs : List Ret) : Bool := rs.all fun r => match r with
  | .res x => decide (x = .ok)
  | _ => true

theorem Smooth.of {rs : List Ret} (h : smooth rs = true) : Smooth rs := by
  intro x hx
  have := List.all_eq_true.mp h _ hx
  simpa using this

/-- The calls of the server up to its wait for the client's Finished. -/
def half (env : PEnv) : List Call := ((Demo.serverCalls env).take 4).tail

def halfRun (env : PEnv) : List Ret × Ses SSt :=
  run S13.role env (S13.start env Demo.cfg 0 false) (.timeout 0 :: half env)

/-- It has sent its flight and waits for Finished. -/
theorem demo_half : (halfRun Demo.plainEnv).2.st = .awaitFinished ∧ smooth (halfRun Demo.plainEnv).1 = true ∧
    (halfRun Demo.plainEnv).2.eng.release = false ∧ (halfRun Demo.plainEnv).2.eng.saved.length = 5 := by
  decide +kernel

/-- The theorem for a server, with the environment and the calls still unknown. -/
theorem server_case {env : PEnv} {cfg : Cfg} (hc : Crypto env) {cs : List Call} (c : Call) {r : List Ret × Ses SSt}
    (hr : r = run S13.role env (S13.start env cfg 0 false) (.timeout 0 :: cs)) (h1 : smooth r.1 = true)
    (h2 : r.2.eng.release = false) : (call S13.role env r.2 c).1 = .res .panic →
      12 ≤ (call S13.role env r.2 c).2.eng.saved.length := by
  subst hr
  exact (no_panic_partial (R := S13.role) (.server (cfg := cfg) 0 false) hc 0 cs c (.of h1) fun h => by rw [h2] at h; cases h).2

theorem halfRun_eq (env : PEnv) :
    halfRun env = run S13.role env (S13.start env Demo.cfg 0 false) (.timeout 0 :: half env) := rfl

/-- Nothing makes it panic, unless it saves more than its flight. -/
theorem demo_case (c : Call) : (call S13.role Demo.plainEnv (halfRun Demo.plainEnv).2 c).1 = .res .panic →
    12 ≤ (call S13.role Demo.plainEnv (halfRun Demo.plainEnv).2 c).2.eng.saved.length :=
  server_case demo_crypto c (halfRun_eq Demo.plainEnv) demo_half.2.1 demo_half.2.2.1

end Verif.Props.NoPanic13

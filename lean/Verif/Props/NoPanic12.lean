import Verif.Lemmas.NoPanic12
import Verif.Props.Recv12
/-!
# C22, a DTLS 1.2 session during the handshake and after it

A session whose first call is `handle_timeout`, as the documentation of the crate asks, and that has
answered no call with an error. Whatever datagrams then arrive, in whatever order and with whatever
contents, and whatever else the application calls, no call panics; with two exceptions. One is
`Recv12.duplicate_panics`: before the peer's encryption is on, a datagram carries a record with the epoch and
the sequence number of a record of a later epoch that is already queued. The other is `Spent`: the sixteen bits of a message counter
are used up, or a record of an epoch past 1 was opened.
-/
namespace Verif.Props.NoPanic12
open Verif Wire E12 M

section
variable {R : Role} {env : PEnv} {cfg : Cfg} {s0 : Ses R.St}

/-- No call so far was answered with an error. -/
def Smooth (rs : List Ret) : Prop := ∀ x, Ret.res x ∈ rs → x = .ok

theorem run_one (s : Ses R.St) (c : Call) : run R env s [c] = ([(call R env s c).1], (call R env s c).2) := by
  unfold run
  dsimp only
  split <;> rfl

/-- The invariant along a run. -/
theorem smooth_inv (h : Start env cfg R s0) (a : Sound12 env) {p : Plan12 R env}
    (hp : ∀ n, p.Inv (noteTime R env n s0)) (n : Nat) (l : List Call)
    (hs : Smooth (run R env s0 (.timeout n :: l.reverse)).1) : p.Inv (run R env s0 (.timeout n :: l.reverse)).2 := by
  induction l with
  | nil =>
    rw [List.reverse_nil, run_one] at hs ⊢
    have := p.timeout a h.roleOk12 s0 n (hp n)
    refine (p.answer (Rep := False) (wp_mono this (fun _ _ h => h) fun _ _ h => .inr h)).2 ?_
    exact hs _ (List.mem_singleton.mpr rfl)
  | cons c l ih =>
    rw [List.reverse_cons, ← List.cons_append] at hs ⊢
    rcases run_append R env s0 (.timeout n :: l.reverse) [c] with he | he
    · rw [he] at hs ⊢
      exact ih hs
    · rw [he, run_one] at hs ⊢
      have hi := ih fun x hx => hs x (List.mem_append_left _ hx)
      exact (p.call a h.roleOk12 _ c hi).2 fun x hx => hs x (List.mem_append_right _ (List.mem_singleton.mpr hx.symm))

/-- No call panics, during the handshake and after it. Partial: two kinds of panic are left, and a session that
reported an error is not covered. -/
theorem no_panic_partial (h : Start env cfg R s0) (a : Sound12 env) (n : Nat) (cs : List Call) (c : Call) :
    let r := run R env s0 (.timeout n :: cs)
    Smooth r.1 → (call R env r.2 c).1 = .res .panic →
    Spent (call R env r.2 c).2.eng ∨ ∃ b, c = .packet b ∧ Repeats r.2.eng b := by
  intro r hs
  obtain ⟨p, hp⟩ := h.plan12 a
  have hi : p.Inv r.2 := by
    have := smooth_inv h a hp n cs.reverse
    rw [List.reverse_reverse] at this
    exact this hs
  exact (p.call a h.roleOk12 r.2 c hi).1

/-- Once the peer's encryption is on, repeated records do no harm. -/
theorem no_panic_encrypted_partial (h : Start env cfg R s0) (a : Sound12 env) (n : Nat) (cs : List Call) (c : Call) :
    let r := run R env s0 (.timeout n :: cs)
    Smooth r.1 → r.2.eng.peerEnc = true → ¬ Spent (call R env r.2 c).2.eng → (call R env r.2 c).1 ≠ .res .panic := by
  intro r hs he hn hp
  rcases no_panic_partial h a n cs c hs hp with g | ⟨_, _, g, _⟩
  · exact hn g
  · rw [he] at g; cases g

/-- A call that brings no datagram panics only with a spent counter. -/
theorem no_panic_own_partial (h : Start env cfg R s0) (a : Sound12 env) (n : Nat) (cs : List Call) (c : Call)
    (hc : ∀ b, c ≠ .packet b) :
    let r := run R env s0 (.timeout n :: cs)
    Smooth r.1 → ¬ Spent (call R env r.2 c).2.eng → (call R env r.2 c).1 ≠ .res .panic := by
  intro r hs hn hp
  rcases no_panic_partial h a n cs c hs hp with g | ⟨b, g, _⟩
  · exact hn g
  · exact hc b g

end

/-! ## Concrete cases -/

theorem demo_sound (auth : Auth) (suites : List Nat) (x y : Bool) (h : ∀ cs ∈ suites, Demo.params cs ≠ none) :
    Sound12 (Demo.env auth suites x y) where
  dec k n ad c p hd := by
    have hd : (if _ then some c.dropLast else none) = some p := hd
    split at hd
    · cases hd; simp
    · cases hd
  sane := Recv12.suite_sane_demo auth suites x y
  search := Recv12.search_ok_demo
  rand t := by
    show (beBytes 8 t).length = 8
    simp [beBytes]
  known := h
  sig cs _ hp := by
    show (if Config.isPsk cs then none else some 3) ≠ none
    rw [hp]; nofun

/-- `Smooth` as a test. -/
def smooth (rs : List Ret) : Bool := rs.all fun r => match r with
  | .res x => decide (x = .ok)
  | _ => true

theorem Smooth.of {rs : List Ret} (h : smooth rs = true) : Smooth rs := by
  intro x hx
  have := List.all_eq_true.mp h _ hx
  simpa using this

/-- Nothing of a later epoch is queued. -/
def plainQueue (e : Eng) : Bool := e.rx.all fun item => match item.head? with
  | some x => x.rcd.epoch == 0
  | none => true

/-- The client after the first flight of the server, waiting for change_cipher_spec. -/
def halfRun (env : PEnv) : List Ret × Ses CSt :=
  run C12.role env (C12.start env Demo.cfg 0) (.timeout 0 :: (Demo.rounds env 1).cCalls.tail)

theorem demo_half : (halfRun Demo.certEnv).2.st = .awaitChangeCipherSpec ∧ smooth (halfRun Demo.certEnv).1 = true ∧
    plainQueue (halfRun Demo.certEnv).2.eng = true := by decide +kernel

/-- The theorem for a client, with the environment and the calls still unknown. -/
theorem client_case {env : PEnv} {cfg : Cfg} (a : Sound12 env) {cs : List Call} (c : Call) {r : List Ret × Ses CSt}
    (hr : r = run C12.role env (C12.start env cfg 0) (.timeout 0 :: cs)) (h1 : smooth r.1 = true)
    (h2 : plainQueue r.2.eng = true) : (call C12.role env r.2 c).1 = .res .panic → Spent (call C12.role env r.2 c).2.eng := by
  subst hr
  intro hp
  rcases no_panic_partial (R := C12.role) (.client (cfg := cfg) 0) a 0 cs c (.of h1) hp with h | ⟨_, _, _, _, hm, x, hx, he, _⟩
  · exact h
  · have := List.all_eq_true.mp h2 _ hm
    simp only [hx, beq_iff_eq] at this
    exact absurd this he

theorem halfRun_eq (env : PEnv) :
    halfRun env = run C12.role env (C12.start env Demo.cfg 0) (.timeout 0 :: (Demo.rounds env 1).cCalls.tail) := rfl

theorem cert_sound : Sound12 Demo.certEnv := demo_sound (.cert 3 4 [4]) [0xC02B] false true (by decide)

/-- Nothing makes the waiting client panic while its counters last. -/
theorem demo_case (c : Call) : (call C12.role Demo.certEnv (halfRun Demo.certEnv).2 c).1 = .res .panic →
    Spent (call C12.role Demo.certEnv (halfRun Demo.certEnv).2 c).2.eng :=
  client_case cert_sound c (halfRun_eq Demo.certEnv) demo_half.2.1 demo_half.2.2

end Verif.Props.NoPanic12

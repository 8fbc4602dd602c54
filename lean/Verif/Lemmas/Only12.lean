import Verif.Lemmas.Saga12
import Verif.Lemmas.Wired12
/-!
# Which records a DTLS 1.2 engine queues, and that its log grows
-/
namespace Verif.E12
open Verif Wire Window Timer Aead M

/-- Every record queued, and every one kept for retransmission, satisfies `Q`. -/
def Only (Q : UInt8 → Nat → Bytes → Prop) (e : Eng) : Prop :=
  (∀ c ep q p, .queued c ep q p ∈ e.log → Q c ep p) ∧ ∀ x ∈ e.saved, Q x.ctype x.epoch x.fragment

section
variable {Q : UInt8 → Nat → Bytes → Prop}

/-- Nothing else is queued. -/
def Onl (Q : UInt8 → Nat → Bytes → Prop) (e e' : Eng) : Prop := Only Q e → Only Q e'

theorem Onl.refl (e : Eng) : Onl Q e e := id
theorem Onl.trans {a b c : Eng} (h : Onl Q a b) (g : Onl Q b c) : Onl Q a c := fun x => g (h x)

/-- Neither log nor saved records are touched. -/
theorem Onl.of {e e' : Eng} (h1 : e'.log = e.log) (h2 : e'.saved = e.saved) : Onl Q e e' := fun h => by
  unfold Only; rw [h1, h2]; exact h

theorem Onl.log {e e' : Eng} (es : List Ev) (h1 : e'.log = es ++ e.log) (hs : ∀ x ∈ es, Ev.isSend x = false)
    (h2 : e'.saved = e.saved) : Onl Q e e' := fun h => by
  unfold Only
  rw [h1, h2]
  refine ⟨fun c ep q p hm => ?_, h.2⟩
  rcases List.mem_append.mp hm with g | g
  · cases hs _ g
  · exact h.1 c ep q p g

theorem createRecord_only (env : Env) (c : UInt8) (sv fo : Bool) (f : Bytes) (s : Eng)
    (hq : Q c 0 f) : Onl Q s (createRecord env c 0 sv fo f s).2 := by
  intro h
  have hsv : Only Q (saveEntry s sv ⟨c, 0, f⟩) := by
    unfold saveEntry
    split
    · refine ⟨h.1, fun x hx => ?_⟩
      rcases List.mem_append.mp hx with g | g
      · exact h.2 x g
      · cases List.mem_singleton.mp g; exact hq
    · exact h
  refine createRecord_ind (motive := fun r => Only Q r.2) env c 0 sv fo f s ?_ ?_ ?_ ?_ ?_
  · exact fun h => absurd h (by decide)
  · exact fun _ _ => hsv
  · exact fun h => absurd h (by decide)
  · intro _ _
    refine ⟨fun a ep q p hm => ?_, hsv.2⟩
    rcases List.mem_cons.mp hm with g | g
    · cases g; exact hq
    · exact hsv.1 a ep q p g
  · exact fun h => absurd h (by decide)

variable (hQ : ∀ c ep p, Q c ep p → ep = 0)

include hQ in
theorem resendLoop_only (env : Env) (es : List Entry) (fo : Bool) (s : Eng)
    (h : ∀ x ∈ es, Q x.ctype x.epoch x.fragment) : Onl Q s (resendLoop env es fo s).2 := by
  induction es generalizing fo s with
  | nil => exact .refl s
  | cons e rest ih =>
    unfold resendLoop
    rw [bind_snd]
    have hq := h e List.mem_cons_self
    have h0 := hQ _ _ _ hq
    rw [h0] at hq
    rw [h0]
    have h1 := createRecord_only env e.ctype false fo e.fragment s hq
    split
    · exact h1.trans (ih false _ fun x hx => h x (List.mem_cons_of_mem _ hx))
    · exact h1

include hQ in
theorem flightResend_only (env : Env) (s : Eng) : Onl Q s (flightResend env s).2 := by
  intro h
  unfold flightResend
  dsimp only
  have h1 := resendLoop_only hQ env s.saved (!s.release)
    { s with tx := if s.release then s.tx else [], saved := [] } h.2 ⟨h.1, nofun⟩
  exact ⟨h1.1, h.2⟩

include hQ in
theorem inFrame_only (env : Env) : InFrame env (Onl Q) where
  refl := .refl
  trans _ _ _ h g := h.trans g
  recv e p := by
    obtain ⟨rp, cf, cr, es, he, hs⟩ := recordsParse_frame env p e
    rw [hs]
    refine .log es rfl (fun x hx => ?_) rfl
    have := he x hx
    cases x <;> simp_all [Ev.isOpened, Ev.isSend]
  resend := flightResend_only hQ env
  rx _ _ _ := .of rfl rfl
  peerEnc _ := .of rfl rfl

theorem fragmentLoop_only (env : Env) (t : UInt8) (q : Nat) (body : Bytes) (pr fuel off : Nat) (s : Eng)
    (ht : msgEpoch t = 0) (h : ∀ off n, Q ctHandshake 0 (hsFragment t q body off n)) :
    Onl Q s (fragmentLoop env t q body pr fuel off s).2 := by
  induction fuel generalizing off s with
  | zero => exact .refl s
  | succ n ih =>
    unfold fragmentLoop
    dsimp only
    rw [ht]
    split
    · rw [bind_snd]
      have h1 := createRecord_only (Q := Q) env ctHandshake true false
        (hsFragment t q body off (chunkLen s pr body.length off)) s (h _ _)
      split
      · split
        · exact h1
        · exact h1.trans (ih _ _)
      · exact h1
    · exact .refl s

theorem createHandshake_only (env : Env) (t : UInt8) (body : Bytes) (s : Eng)
    (ht : msgEpoch t = 0) (h : ∀ q off n, Q ctHandshake 0 (hsFragment t q body off n)) :
    Onl Q s (createHandshake env t body s).2 := by
  have h0 : ∀ tr ns, Onl Q s { s with transcript := tr, nextSeq := ns } := fun _ _ => .of rfl rfl
  unfold createHandshake
  dsimp only
  split
  · exact .of rfl rfl
  split
  · exact .of rfl rfl
  · exact (h0 _ _).trans (fragmentLoop_only env t _ body _ _ _ _ ht (h _))

theorem nextHandshake_only (env : Env) (e : Eng) (t : UInt8) : Onl Q e (nextHandshake env t e).2 := by
  unfold nextHandshake
  split
  · exact .refl e
  split
  · exact .refl e
  unfold defragment
  dsimp only
  repeat' split
  all_goals first
    | exact .refl e
    | exact .of rfl rfl
    | exact .log [_] rfl (by simp [Ev.isSend]) rfl

include hQ in
theorem handleTimeout_only (env : Env) (n : Nat) (e : Eng) : Onl Q e (handleTimeout env n e).2 := by
  have h0 : ∀ t k, Onl Q e { e with timers := t, tick := k } := fun _ _ => .of rfl rfl
  unfold handleTimeout
  dsimp only
  split
  · exact .of rfl rfl
  · exact .of rfl rfl
  · exact (h0 _ _).trans (flightResend_only hQ _ _)
  · exact .of rfl rfl

theorem pollOutput_only (n now : Nat) (e : Eng) : Onl Q e (pollOutput n now e).2 := by
  have h1 : Onl Q e (purge e) := .of rfl rfl
  have h2 : ∀ e : Eng, Onl Q e (pollRest n now e).2 := by
    intro e
    unfold pollRest
    repeat' split
    all_goals first
      | exact .of rfl rfl
      | exact .log [_] rfl (by simp [Ev.isSend]) rfl
  unfold pollOutput
  dsimp only
  split
  · split
    · split
      · exact h1
      · exact .log [_] rfl (by simp [Ev.isSend]) rfl
    · exact h1.trans (h2 _)
  · exact h1.trans (h2 _)

end

/-- The log grows. -/
def Ext (e e' : Eng) : Prop := ∃ es, e'.log = es ++ e.log

theorem Ext.of {e e' : Eng} (h : e'.log = e.log) : Ext e e' := ⟨[], h⟩

theorem frame_ext (env : Env) : Frame env Ext where
  refl e := ⟨[], rfl⟩
  trans _ _ _ := fun ⟨x, h⟩ ⟨y, g⟩ => ⟨y ++ x, by rw [g, h, List.append_assoc]⟩
  handshake e t b := (createHandshake_grow env t b e).log
  ccs e := (createRecord_grow ..).log
  nextHandshake e t := (nextHandshake_grow env t e).log
  nextRecord e c := (nextRecord_grow c e).log
  enablePeer e := ((inFrame_grow env).enablePeer e).log
  flightBegin e := .of rfl
  flightStop e := .of rfl
  release e := .of rfl
  resetServer e := .of rfl
  resetClient e := .of rfl
  dropCcs e := .of rfl
  tick e := .of rfl
  suite e cs := by
    unfold setCipherSuite
    split <;> exact .of rfl
  master e m := .of rfl
  keys e k := .of rfl

theorem step_ext {R : Role} {env : PEnv} (hr : RoleOk R env) (s : Ses R.St) :
    Ext s.eng (R.step env s.st s).2.eng ∧ (R.step env s.st s).2.st = s.st := by
  by_cases h : s.st = R.app
  · rw [h, hr.app]
    have := app_later (env := env) R.app R.closed s
    exact ⟨this.1.log, this.2.trans h⟩
  · have := hr.fr (frame_ext env.toEnv) s.st h s
    exact ⟨this.1, this.2.2.1⟩

end Verif.E12

import Verif.Lemmas.Frame12
import Verif.Lemmas.Start12
import Verif.Lemmas.Shown12
/-!
# Application data and alerts on the transmit queue, DTLS 1.2

What the application and `close` put on the transmit queue, and that nothing else does.
-/
namespace Verif.E12
open Verif Wire Window Timer Aead M

/-- Application data or alert. -/
def isMark (c : UInt8) : Bool := c == ctAppData || c == ctAlert

/-- Type and content of the application data and alert records put on the transmit queue, newest
first. -/
def marks : List Ev → List (UInt8 × Bytes)
  | [] => []
  | .queued c _ _ p :: l => if isMark c then (c, p) :: marks l else marks l
  | _ :: l => marks l

/-- Nothing but handshake and change cipher spec is kept for retransmission. -/
def Clean (e : Eng) : Prop := ∀ x ∈ e.saved, isMark x.ctype = false

/-- No application data and no alert is queued, and a received close_notify is not forgotten. -/
def Marked (e e' : Eng) : Prop :=
  Clean e → Clean e' ∧ marks e'.log = marks e.log ∧ (e.closeRecv = true → e'.closeRecv = true)

theorem Marked.refl (e : Eng) : Marked e e := fun h => ⟨h, rfl, id⟩

theorem Marked.trans {a b c : Eng} (h : Marked a b) (g : Marked b c) : Marked a c := fun ha => by
  obtain ⟨h1, h2, h3⟩ := h ha
  obtain ⟨g1, g2, g3⟩ := g h1
  exact ⟨g1, g2.trans h2, fun x => g3 (h3 x)⟩

/-- What `create_record_inner` does: it saves as told, and queues one record exactly if it succeeds. -/
theorem createRecord_marks (env : Env) (c : UInt8) (e : Nat) (sv fo : Bool) (f : Bytes) (s : Eng) :
    let r := createRecord env c e sv fo f s
    (r.2.saved = s.saved ∨ r.2.saved = s.saved ++ [⟨c, e, f⟩] ∧ sv = true)
    ∧ r.2.closeRecv = s.closeRecv
    ∧ ((r.1 = .ok () ∧ marks r.2.log = if isMark c then (c, f) :: marks s.log else marks s.log)
      ∨ ((∃ x, r.1 = .fail x ∧ x ≠ .transient ∧ x ≠ .diverge) ∧ marks r.2.log = marks s.log)) := by
  have hsv : ∀ x : Entry, (saveEntry s sv x).saved = s.saved ∨
      (saveEntry s sv x).saved = s.saved ++ [x] ∧ sv = true := by
    intro x
    unfold saveEntry
    split
    · rename_i h; exact .inr ⟨rfl, h⟩
    · exact .inl rfl
  have hsr : ∀ x : Entry, (saveEntry s sv x).closeRecv = s.closeRecv ∧ (saveEntry s sv x).log = s.log := by
    intro x
    unfold saveEntry
    split <;> exact ⟨rfl, rfl⟩
  dsimp only
  refine createRecord_ind (motive := fun r =>
    (r.2.saved = s.saved ∨ r.2.saved = s.saved ++ [⟨c, e, f⟩] ∧ sv = true)
    ∧ r.2.closeRecv = s.closeRecv
    ∧ ((r.1 = .ok () ∧ marks r.2.log = if isMark c then (c, f) :: marks s.log else marks s.log)
      ∨ ((∃ x, r.1 = .fail x ∧ x ≠ .transient ∧ x ≠ .diverge) ∧ marks r.2.log = marks s.log))) env c e sv fo f s ?_ ?_ ?_ ?_ ?_
  · intro _ _
    exact ⟨.inl rfl, rfl, .inr ⟨⟨_, rfl, by simp⟩, rfl⟩⟩
  · intro _ _
    exact ⟨hsv _, (hsr _).1, .inr ⟨⟨_, rfl, by simp⟩, congrArg marks (hsr _).2⟩⟩
  · intro _ t flt _ hf
    exact ⟨hsv _, (hsr _).1, .inr ⟨⟨_, rfl, by rcases hf with h | h <;> simp [h]⟩, congrArg marks (hsr _).2⟩⟩
  · intro _ _
    refine ⟨hsv _, (hsr _).1, .inl ⟨rfl, ?_⟩⟩
    simp [emitRecord, marks, (hsr _).2]
  · intro _ _ _ key iv nonce ct _ _ _ _
    refine ⟨hsv _, (hsr _).1, .inl ⟨rfl, ?_⟩⟩
    simp [emitRecord, sealedState, marks, (hsr _).2]

theorem createRecord_marked (env : Env) (c : UInt8) (e : Nat) (sv fo : Bool) (f : Bytes) (s : Eng)
    (hc : isMark c = false) : Marked s (createRecord env c e sv fo f s).2 := by
  obtain ⟨h1, h2, h3⟩ := createRecord_marks env c e sv fo f s
  intro hcl
  refine ⟨?_, ?_, fun h => h2.trans h⟩
  · rcases h1 with h | ⟨h, _⟩
    · intro x hx; rw [h] at hx; exact hcl x hx
    · intro x hx
      rw [h] at hx
      rcases List.mem_append.1 hx with hx | hx
      · exact hcl x hx
      · rw [List.mem_singleton.1 hx]; exact hc
  · rcases h3 with ⟨_, h⟩ | ⟨_, h⟩
    · rw [h, hc]; rfl
    · exact h

theorem resendLoop_marked (env : Env) (es : List Entry) (force : Bool) (s : Eng)
    (h : ∀ x ∈ es, isMark x.ctype = false) : Marked s (resendLoop env es force s).2 := by
  induction es generalizing force s with
  | nil => exact .refl s
  | cons e rest ih =>
    unfold resendLoop
    rw [bind_snd]
    have h1 := createRecord_marked env e.ctype e.epoch false force e.fragment s (h e (by simp))
    split
    · exact h1.trans (ih false _ fun x hx => h x (by simp [hx]))
    · exact h1

theorem flightResend_marked (env : Env) (s : Eng) : Marked s (flightResend env s).2 := by
  intro hcl
  unfold flightResend
  dsimp only
  have h := resendLoop_marked env s.saved (!s.release)
    { s with tx := if s.release then s.tx else [], saved := [] } hcl (fun x hx => by cases hx)
  exact ⟨hcl, h.2.1, h.2.2⟩

theorem marks_append (a b : List Ev) (h : ∀ e ∈ a, Ev.isSend e = false) : marks (a ++ b) = marks b := by
  induction a with
  | nil => rfl
  | cons e a ih =>
    have h1 := h e (by simp)
    have h2 := ih fun x hx => h x (by simp [hx])
    cases e <;> simp_all [marks, Ev.isSend]

theorem recordsParse_marked (env : Env) (e : Eng) (p : Bytes) : Marked e (recordsParse env p e).2 := by
  intro hcl
  refine ⟨?_, ?_, recordsParse_close env p e⟩
  · obtain ⟨rp, cf, cr, es, he, hs⟩ := recordsParse_frame env p e
    rw [hs]; exact hcl
  · obtain ⟨rp, cf, cr, es, he, hs⟩ := recordsParse_frame env p e
    rw [hs]
    refine marks_append _ _ fun x hx => ?_
    have := he x hx
    cases x <;> simp_all [Ev.isOpened, Ev.isSend]

theorem inFrame_marked (env : Env) : InFrame env Marked where
  refl := .refl
  trans _ _ _ h g := h.trans g
  recv := recordsParse_marked env
  resend := flightResend_marked env
  rx _ _ _ := fun h => ⟨h, rfl, id⟩
  peerEnc _ := fun h => ⟨h, rfl, id⟩

theorem fragmentLoop_marked (env : Env) (t : UInt8) (q : Nat) (body : Bytes) (pr fuel off : Nat) (s : Eng) :
    Marked s (fragmentLoop env t q body pr fuel off s).2 := by
  induction fuel generalizing off s with
  | zero => exact .refl s
  | succ n ih =>
    unfold fragmentLoop
    dsimp only
    split
    · rw [bind_snd]
      have h1 := createRecord_marked env ctHandshake (msgEpoch t) true false
        (hsFragment t q body off (chunkLen s pr body.length off)) s (by decide)
      split
      · split
        · exact h1
        · exact h1.trans (ih _ _)
      · exact h1
    · exact .refl s

theorem createHandshake_marked (env : Env) (e : Eng) (t : UInt8) (b : Bytes) :
    Marked e (createHandshake env t b e).2 := by
  unfold createHandshake
  dsimp only
  have h : ∀ tr n, Marked e { e with transcript := tr, nextSeq := n } := fun _ _ h => ⟨h, rfl, id⟩
  split
  · exact h _ _
  split
  · exact h _ _
  · exact (h _ _).trans (fragmentLoop_marked _ _ _ _ _ _ _ _)

theorem nextHandshake_marked (env : Env) (e : Eng) (t : UInt8) : Marked e (nextHandshake env t e).2 := by
  have h : ∀ rx tr, Marked e { e with rx := rx, transcript := tr } := fun _ _ h => ⟨h, rfl, id⟩
  have h' : ∀ rx tr ps a b c, Marked e { e with rx := rx, transcript := tr, peerSeq := ps, log := .consumed a b c :: e.log } :=
    fun _ _ _ _ _ _ h => ⟨h, rfl, id⟩
  unfold nextHandshake
  split
  · exact .refl e
  split
  · exact .refl e
  unfold defragment
  dsimp only
  repeat' split
  all_goals first
    | exact .refl e
    | exact h _ _
    | exact h _ e.transcript
    | exact h' _ _ _ _ _ _

theorem frame_marked (env : Env) : Frame env Marked where
  refl := .refl
  trans _ _ _ h g := h.trans g
  handshake := createHandshake_marked env
  ccs e := createRecord_marked env _ _ _ _ _ e (by decide)
  nextHandshake := nextHandshake_marked env
  nextRecord e c := by
    unfold E12.nextRecord
    repeat' split
    all_goals exact fun h => ⟨h, rfl, id⟩
  enablePeer e := (inFrame_marked env).enablePeer e
  flightBegin e := fun _ => ⟨fun x hx => (by cases hx), rfl, id⟩
  flightStop e := fun h => ⟨h, rfl, id⟩
  release e := fun h => ⟨h, rfl, id⟩
  resetServer e := fun h => ⟨h, rfl, id⟩
  resetClient e := fun h => ⟨h, rfl, id⟩
  dropCcs e := fun h => ⟨h, rfl, id⟩
  tick e := fun h => ⟨h, rfl, id⟩
  suite e cs := by
    unfold setCipherSuite
    split
    all_goals exact fun h => ⟨h, rfl, id⟩
  master e m := fun h => ⟨h, rfl, id⟩
  keys e k := fun h => ⟨h, rfl, id⟩

theorem handleTimeout_marked (env : Env) (n : Nat) (e : Eng) : Marked e (handleTimeout env n e).2 := by
  have h : ∀ t k, Marked e { e with timers := t, tick := k } := fun _ _ h => ⟨h, rfl, id⟩
  unfold handleTimeout
  dsimp only
  split
  · exact h _ _
  · exact h _ _
  · exact (h _ _).trans (flightResend_marked _ _)
  · exact h _ _

theorem pollOutput_marked (n now : Nat) (e : Eng) : Marked e (pollOutput n now e).2 := by
  have h : ∀ rx r o, Marked e { e with rx := rx, log := .delivered r o :: e.log } :=
    fun _ _ _ h => ⟨h, rfl, id⟩
  have h1 : Marked e (purge e) := fun h => ⟨h, rfl, id⟩
  have h2 : ∀ e : Eng, Marked e (pollRest n now e).2 := by
    intro e
    unfold pollRest
    repeat' split
    all_goals exact fun h => ⟨h, rfl, id⟩
  unfold pollOutput
  dsimp only
  split
  · split
    · split
      · exact h1
      · exact fun h => ⟨h, rfl, id⟩
    · exact h1.trans (h2 _)
  · exact h1.trans (h2 _)

section
variable {R : Role} {env : PEnv}

theorem noteTime_marked (n : Nat) (s : Ses R.St) :
    Marked s.eng (noteTime R env n s).eng ∧ (noteTime R env n s).queued = s.queued
    ∧ (noteTime R env n s).st = s.st := by
  unfold noteTime
  split
  · exact ⟨.refl _, rfl, rfl⟩
  · exact ⟨fun h => ⟨h, rfl, id⟩, rfl, rfl⟩

theorem pollM_marked (n : Nat) (s : Ses R.St) :
    Marked s.eng (pollM R n s).2.eng ∧ (pollM R n s).2.queued = s.queued ∧ (pollM R n s).2.st = s.st := by
  unfold pollM
  split
  · exact ⟨.refl _, rfl, rfl⟩
  · exact ⟨pollOutput_marked _ _ _, rfl, rfl⟩

end
end Verif.E12

import Verif.Model.Engine12
import Verif.Lemmas.Monad
/-!
# What each engine function can change
-/
namespace Verif.E12
open Verif Wire Window Timer Aead M

def Ev.isOpened : Ev → Bool
  | .opened .. => true
  | _ => false

def Ev.isSend : Ev → Bool
  | .sealed .. => true
  | .queued .. => true
  | _ => false

/-- Only the receive bookkeeping changed: window, confirmation, close flag, opened records. -/
def RecvFrame (s s' : Eng) : Prop :=
  ∃ rp cf cr es, (∀ e ∈ es, Ev.isOpened e = true) ∧
    s' = { s with replay := rp, confirmed := cf, closeRecv := cr, log := es ++ s.log }

/-- Only the transmit side changed. -/
def SendFrame (s s' : Eng) : Prop :=
  ∃ tx a b sv t es, (∀ e ∈ es, Ev.isSend e = true) ∧
    s' = { s with tx := tx, seq0 := a, seqN := b, saved := sv, tick := t, log := es ++ s.log }

theorem RecvFrame.refl (s : Eng) : RecvFrame s s :=
  ⟨s.replay, s.confirmed, s.closeRecv, [], by simp, rfl⟩

theorem RecvFrame.trans {a b c : Eng} (h : RecvFrame a b) (g : RecvFrame b c) : RecvFrame a c := by
  obtain ⟨rp, cf, cr, es, he, rfl⟩ := h
  obtain ⟨rp', cf', cr', es', he', rfl⟩ := g
  refine ⟨rp', cf', cr', es' ++ es, ?_, by simp⟩
  intro e hm
  rcases List.mem_append.mp hm with h | h
  · exact he' e h
  · exact he e h

theorem SendFrame.refl (s : Eng) : SendFrame s s :=
  ⟨s.tx, s.seq0, s.seqN, s.saved, s.tick, [], by simp, rfl⟩

theorem SendFrame.trans {a b c : Eng} (h : SendFrame a b) (g : SendFrame b c) : SendFrame a c := by
  obtain ⟨_, _, _, _, _, es, he, rfl⟩ := h
  obtain ⟨t1, t2, t3, t4, t5, es', he', rfl⟩ := g
  refine ⟨t1, t2, t3, t4, t5, es' ++ es, ?_, by simp⟩
  intro e hm
  rcases List.mem_append.mp hm with h | h
  · exact he' e h
  · exact he e h

/-! ## Receiving -/

theorem openRecord_frame (env : Env) (sl : Bytes) (r : Rec12) (s : Eng) :
    RecvFrame s (openRecord env sl r s).2 := by
  have hn : ∀ ev, Ev.isOpened ev = true → RecvFrame s (noteOpened s r ev) := fun ev h =>
    ⟨_, _, s.closeRecv, [ev], by simpa using h, rfl⟩
  unfold openRecord
  split; · exact .refl s
  split; · exact .refl s
  split; · exact .refl s
  split; · exact .refl s
  split; · exact .refl s
  dsimp only
  split
  · split <;> exact .refl s
  · split <;> exact hn _ rfl

theorem recordParse_frame (env : Env) (sl : Bytes) (s : Eng) :
    RecvFrame s (recordParse env sl s).2 := by
  unfold recordParse
  split
  · split
    · exact .refl s
    · exact openRecord_frame ..
  · exact .refl s
  · exact .refl s

theorem parseSlices_frame (env : Env) (l : List Bytes) (e : SplitEnd) (acc : List Rx) (s : Eng) :
    RecvFrame s (parseSlices env l e acc s).2 := by
  induction l generalizing acc s with
  | nil => cases e <;> exact .refl s
  | cons sl rest ih =>
    unfold parseSlices
    rw [bind_snd]
    have h := recordParse_frame env sl s
    rcases hr : (recordParse env sl s).1 with (_ | rx) | f
    · exact h.trans (ih ..)
    · dsimp only
      split
      · exact h
      · exact h.trans (ih ..)
    · exact h

theorem classify_frame (r : Rx) (s : Eng) : RecvFrame s (classify r s).2 := by
  have hc : RecvFrame s { s with closeRecv := true } := ⟨s.replay, s.confirmed, true, [], by simp, rfl⟩
  unfold classify classifyAlert
  repeat' split
  all_goals first
    | exact .refl s
    | exact hc

theorem classifyAll_frame (l acc : List Rx) (s : Eng) : RecvFrame s (classifyAll l acc s).2 := by
  induction l generalizing acc s with
  | nil => exact .refl s
  | cons r rest ih =>
    unfold classifyAll
    rw [bind_snd]
    have h := classify_frame r s
    rcases hr : (classify r s).1 with (_ | rx) | f
    · exact h.trans (ih ..)
    · exact h.trans (ih ..)
    · exact h

theorem recordsParse_frame (env : Env) (p : Bytes) (s : Eng) :
    RecvFrame s (recordsParse env p s).2 := by
  unfold recordsParse
  rw [bind_snd]
  have h := parseSlices_frame env (split12 p).1 (split12 p).2 [] s
  split
  · exact h.trans (classifyAll_frame ..)
  · exact h

/-! ## Sending -/

theorem emitRecord_frame (s : Eng) (c : UInt8) (e : Nat) (a : Bool) (p f : Bytes) :
    SendFrame s (emitRecord s c e a p f) :=
  ⟨_, _, _, s.saved, s.tick, [_], by simp [Ev.isSend], rfl⟩

theorem sealRecord_frame (env : Env) (c : UInt8) (a : Bool) (f : Bytes) (s : Eng) :
    SendFrame s (sealRecord env c a f s).2 := by
  have ht : SendFrame s { s with tick := s.tick + 1 } :=
    ⟨s.tx, s.seq0, s.seqN, s.saved, _, [], by simp, rfl⟩
  unfold sealRecord
  split; · exact .refl s
  split; · exact .refl s
  dsimp only
  split; · exact ht
  split; · exact ht
  dsimp only
  refine SendFrame.trans (b := { s with tick := s.tick + 1, log := _ :: s.log }) ?_ (emitRecord_frame ..)
  exact ⟨s.tx, s.seq0, s.seqN, s.saved, _, [_], by simp [Ev.isSend], rfl⟩

theorem saveEntry_frame (s : Eng) (b : Bool) (e : Entry) : SendFrame s (saveEntry s b e) := by
  unfold saveEntry
  split
  · exact ⟨s.tx, s.seq0, s.seqN, _, s.tick, [], by simp, rfl⟩
  · exact .refl s

theorem createRecord_frame (env : Env) (c : UInt8) (e : Nat) (sv fo : Bool) (f : Bytes) (s : Eng) :
    SendFrame s (createRecord env c e sv fo f s).2 := by
  unfold createRecord
  split; · exact .refl s
  dsimp only
  have h := saveEntry_frame s sv { ctype := c, epoch := e, fragment := f }
  split; · exact h
  split
  · exact h.trans (sealRecord_frame ..)
  · exact h.trans (emitRecord_frame ..)

theorem resendLoop_frame (env : Env) (l : List Entry) (fo : Bool) (s : Eng) :
    SendFrame s (resendLoop env l fo s).2 := by
  induction l generalizing fo s with
  | nil => exact .refl s
  | cons e rest ih =>
    unfold resendLoop
    rw [bind_snd]
    have h := createRecord_frame env e.ctype e.epoch false fo e.fragment s
    split
    · exact h.trans (ih ..)
    · exact h

theorem flightResend_frame (env : Env) (s : Eng) : SendFrame s (flightResend env s).2 := by
  unfold flightResend
  dsimp only
  have h := resendLoop_frame env s.saved (!s.release)
    { s with tx := if s.release then s.tx else [], saved := [] }
  have h0 : SendFrame s { s with tx := if s.release then s.tx else [], saved := [] } :=
    ⟨_, s.seq0, s.seqN, _, s.tick, [], by simp, rfl⟩
  obtain ⟨tx, a, b, sv, t, es, he, h2⟩ := h0.trans h
  exact ⟨tx, a, b, s.saved, t, es, he, by rw [h2]⟩

theorem fragmentLoop_frame (env : Env) (t : UInt8) (q : Nat) (b : Bytes) (p fuel off : Nat) (s : Eng) :
    SendFrame s (fragmentLoop env t q b p fuel off s).2 := by
  induction fuel generalizing off s with
  | zero => exact .refl s
  | succ n ih =>
    unfold fragmentLoop
    dsimp only
    have h := createRecord_frame env ctHandshake (msgEpoch t) true false
      (hsFragment t q b off (chunkLen s p b.length off)) s
    split
    · rw [bind_snd]
      split
      · refine h.trans ?_
        split
        · exact .refl _
        · exact ih ..
      · exact h
    · exact .refl s

theorem maybeResend_frame (env : Env) (rs : List Rx) (s : Eng) :
    SendFrame s (maybeResend env rs s).2 := by
  unfold maybeResend
  repeat' split
  all_goals first
    | exact flightResend_frame ..
    | exact .refl s

end Verif.E12

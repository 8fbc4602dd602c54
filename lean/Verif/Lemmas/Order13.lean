import Verif.Lemmas.Hist13
/-!
# The order in which a DTLS 1.3 engine takes handshake messages, and the size of its receive queue
-/
namespace Verif.E13
open Verif Wire Window Timer Aead M
open Verif.E12 (insertAt Call outputs outputs_append)

/-- The first message that counts as complete is the first in the queue. -/
theorem completeView_prefix (rx : List (List Rx)) : ∃ more, nextView rx = completeView rx ++ more ∨ completeView rx = [] := by
  unfold nextView completeView
  generalize rx.flatten.dropWhile (·.isHandled) = l
  have hl : l = l.take 50 ++ l.drop 50 := (List.take_append_drop 50 l).symm
  generalize hv : ((l.take 50).flatMap (·.hss)).dropWhile (·.handled) = v
  cases v with
  | nil => exact ⟨[], .inr rfl⟩
  | cons a v =>
    refine ⟨(l.drop 50).flatMap (·.hss), .inl ?_⟩
    conv => lhs; rw [hl, List.flatMap_append]
    rw [List.dropWhile_append, hv]
    simp

theorem first_of {s : Eng} {t : UInt8} {first : Hs} {rest : List Hs} (h1 : hasComplete s t = true)
    (h2 : nextView s.rx = first :: rest) :
    first.header.messageSeq = s.peerSeq ∧ first.header.msgType = t := by
  unfold hasComplete at h1
  split at h1
  · cases h1
  · rename_i f r hv
    obtain ⟨more, hm | hm⟩ := completeView_prefix s.rx
    · rw [h2, hv] at hm
      have : first = f := (List.cons.inj hm).1
      subst this
      split at h1
      · cases h1
      · split at h1
        · cases h1
        · rename_i g1 g2
          exact ⟨Decidable.not_not.mp g1, Decidable.not_not.mp g2⟩
    · rw [hv] at hm; cases hm

theorem Takes.first {s : Eng} {t : UInt8} {first : Hs} {rest : List Hs} (h : Takes s t first rest) :
    first.header.messageSeq = s.peerSeq ∧ first.header.msgType = t := first_of h.complete h.view

/-- Numbers accepted, the last one first. -/
def acceptedOf : List Ev → List Nat
  | [] => []
  | .accepted q :: l => q :: acceptedOf l
  | _ :: l => acceptedOf l

theorem acceptedOf_isRx (l : List Ev) : acceptedOf (l.filter Ev.isRx) = acceptedOf l := by
  induction l with
  | nil => rfl
  | cons e l ih =>
    rw [List.filter_cons]
    cases e <;> simp [acceptedOf, Ev.isRx, ih]

/-- Every message taken was the next to be accepted. -/
def Ordered : List Ev → Prop
  | [] => True
  | .accepted q :: l => acceptedOf l = (List.range q).reverse ∧ Ordered l
  | .taken q _ _ :: l => acceptedOf l = (List.range q).reverse ∧ Ordered l
  | _ :: l => Ordered l

theorem ordered_isRx (l : List Ev) : Ordered (l.filter Ev.isRx) ↔ Ordered l := by
  induction l with
  | nil => exact Iff.rfl
  | cons e l ih =>
    rw [List.filter_cons]
    cases e <;> simp [Ordered, Ev.isRx, ih, acceptedOf_isRx]

/-- The log against the next number, and the size of the queue. -/
structure OrdInv (cfg : Cfg) (s : Eng) : Prop where
  next : acceptedOf s.log = (List.range s.peerSeq).reverse
  ord : Ordered s.log
  size : s.rx.length ≤ s.cfg.maxRx
  cfg : s.cfg = cfg

theorem length_insertAt {α : Type} (l : List α) (i : Nat) (x : α) : (insertAt l i x).length = l.length + 1 := by
  unfold insertAt
  simp only [List.length_append, List.length_cons, List.length_take, List.length_drop]
  omega

theorem OrdInv.step {env : Env} {keys poll : Bool} {cfg : Cfg} {s s' : Eng} {a a' : Hand}
    (g : RStep env keys poll (s, a) (s', a')) (h : OrdInv cfg s) : OrdInv cfg s' := by
  obtain ⟨h1, h2, h3, h4⟩ := h
  cases g with
  | other g =>
    have e1 : s'.log.filter Ev.isRx = s.log.filter Ev.isRx := congrArg RxPart.log g
    refine ⟨?_, ?_, ?_, ?_⟩
    · rw [← acceptedOf_isRx, e1, acceptedOf_isRx, show s'.peerSeq = s.peerSeq from congrArg RxPart.peerSeq g]
      exact h1
    · rw [← ordered_isRx, e1, ordered_isRx]; exact h2
    · rw [show s'.rx = s.rx from congrArg RxPart.rx g, show s'.cfg = s.cfg from congrArg RxPart.cfg g]; exact h3
    · rw [show s'.cfg = s.cfg from congrArg RxPart.cfg g]; exact h4
  | noted ho =>
    obtain ⟨e1, _, _, _, _, e2, e3, _, _, e4⟩ := openedSt_same s _ _ _ _ _ _
    exact ⟨by rw [e4, e2]; exact h1, by rw [e4]; exact h2, by rw [e1, e3]; exact h3, by rw [e3]; exact h4⟩
  | opened ho hr =>
    obtain ⟨e1, _, _, _, _, e2, e3, _, _, e4⟩ := openedSt_same s _ _ _ _ _ _
    exact ⟨by rw [e4, e2]; exact h1, by rw [e4]; exact h2, by rw [e1, e3]; exact h3, by rw [e3]; exact h4⟩
  | insert i hn hl => exact ⟨h1, h2, by show (insertAt _ _ _).length ≤ _; rw [length_insertAt]; exact hl, h4⟩
  | replace hn hi hr hl => exact ⟨h1, h2, by show (List.set _ _ _).length ≤ _; rw [List.length_set]; exact h3, h4⟩
  | enable i _ _ hi => exact ⟨h1, h2, Nat.le_trans (List.length_take_le' ..) h3, h4⟩
  | marked ht => exact ⟨h1, h2, by show (markQueue ..).length ≤ _; rw [markQueue_length]; exact h3, h4⟩
  | taken ht =>
    refine ⟨h1, ⟨?_, h2⟩, by show (markQueue ..).length ≤ _; rw [markQueue_length]; exact h3, h4⟩
    rw [ht.first.1]; exact h1
  | accepted hp =>
    refine ⟨?_, ⟨h1, h2⟩, h3, h4⟩
    show s.peerSeq :: acceptedOf s.log = (List.range (s.peerSeq + 1)).reverse
    rw [h1, List.range_succ, List.reverse_append]
    rfl
  | purge hp =>
    exact ⟨h1, h2, Nat.le_trans (List.dropWhile_sublist _).length_le h3, h4⟩
  | deliver hp hr hn =>
    exact ⟨h1, h2, by show (markApp ..).length ≤ _; rw [markApp_length]; exact h3, h4⟩
  | retry _ => exact ⟨h1, h2, Nat.le_trans (List.length_filter_le ..) h3, h4⟩
  | _ => exact ⟨h1, h2, h3, h4⟩

variable {env : PEnv} {cfg : Cfg} {R : Role} {s0 : Ses R.St}

theorem Start.ordInv (h : Start env cfg R s0) (cs : List Call) : OrdInv cfg (run R env s0 cs).2.eng := by
  refine h.rx (P := fun s _ => OrdInv cfg s) (fun _ _ _ _ _ g => OrdInv.step g) ?_ cs
  refine ⟨?_, ?_, ?_, ?_⟩
  · rw [h.saved0.2.2.1, show s0.eng.peerSeq = 0 from congrArg RxPart.peerSeq h.rp0]; rfl
  · rw [h.saved0.2.2.1]; trivial
  · rw [show s0.eng.rx = [] from congrArg RxPart.rx h.rp0]; exact Nat.zero_le _
  · rw [show s0.eng.cfg = cfg from congrArg RxPart.cfg h.rp0]

end Verif.E13

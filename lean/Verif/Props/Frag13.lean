import Verif.Props.Frag12
import Verif.Lemmas.Engine13
import Verif.Props.Demo13
import Verif.Props.Config

/-!
# Fragmentation and reassembly of handshake messages, DTLS 1.3 (C10, C11, C14, C49)
-/

namespace Verif.Props.Frag13

open Verif Verif.Wire Verif.E13
open Verif.E12 (cmpPair insertAt SearchOk Found)
open Verif.Props.Frag12 (Cut Before pos cmp_lt cmp_gt cmp_eq sorted_ext sorted_length takeWhile_cut
  dropWhile_all dropWhile_done dropWhile_fresh)

/-! ## Specification -/

/-- `h` is a piece cut from the message with type `t`, number `q` and body `body`. -/
def Piece (t : UInt8) (q : Nat) (body : Bytes) (h : Hs) : Prop :=
  h.header = { msgType := t, length := body.length, messageSeq := q, fragOff := h.header.fragOff,
               fragLen := h.body.length }
  ∧ h.body = (body.drop h.header.fragOff).take h.body.length
  ∧ h.header.fragOff + h.body.length ≤ body.length

/-- Every byte position of the message lies in one of the pieces. -/
def Covers (body : Bytes) (hs : List Hs) : Prop :=
  hs ≠ [] ∧ ∀ i, i < body.length → ∃ h ∈ hs, h.header.fragOff ≤ i ∧ i < h.header.fragOff + h.body.length

/-- The receive queue `rx` holds the fragments `hs` as the next unhandled ones: everything before them is
handled, everything behind belongs to other messages, and they lie in at most 50 records. -/
def Holds (q : Nat) (hs : List Hs) (rx : List (List Rx)) : Prop :=
  ∃ old cur more : List Rx, ∃ done after : List Hs,
    rx.flatten = old ++ cur ++ more ∧ (∀ r ∈ old, r.isHandled = true) ∧ cur.length ≤ 50
    ∧ cur.flatMap (·.hss) = done ++ hs ++ after ∧ (∀ h ∈ done, h.handled = true)
    ∧ (∀ h ∈ after, h.header.messageSeq ≠ q) ∧ (∀ h ∈ more.flatMap (·.hss), h.header.messageSeq ≠ q)

/-! ## Joining overlapping pieces -/

/-- How far the pieces reach. -/
def reach : List Hs → Nat → Nat
  | [], e => e
  | h :: rest, e => reach rest (max e (h.header.fragOff + h.body.length))

theorem piece_fields {t : UInt8} {q : Nat} {body : Bytes} {h : Hs} (hp : Piece t q body h) :
    h.header.msgType = t ∧ h.header.messageSeq = q ∧ h.header.length = body.length
      ∧ h.header.fragLen = h.body.length := by
  obtain ⟨h1, _⟩ := hp
  exact ⟨by rw [h1], by rw [h1], by rw [h1], by rw [h1]⟩

theorem take_join (body : Bytes) (e off n : Nat) (h1 : off ≤ e) (h2 : e ≤ off + n) :
    body.take e ++ ((body.drop off).take n).drop (e - off) = body.take (off + n) := by
  have : ((body.drop off).take n).drop (e - off) = (body.drop e).take (off + n - e) := by
    rw [List.drop_take, List.drop_drop]
    congr 1
    · omega
    · congr 1; omega
  rw [this]
  have h4 : off + n = e + (off + n - e) := by omega
  rw [h4, List.take_add]
  congr 2; omega

/-- Once everything is there, further pieces change nothing. -/
theorem assemble_done {t : UInt8} {q : Nat} {body : Bytes} :
    ∀ {l : List Hs}, (∀ x ∈ l, Piece t q body x) →
      assemble l body.length body = body ∧ reach l body.length = body.length := by
  intro l
  induction l with
  | nil => intro _; exact ⟨rfl, rfl⟩
  | cons h rest ih =>
    intro hp
    have ph := hp h (by simp)
    obtain ⟨_, _, _, f4⟩ := piece_fields ph
    have hle := ph.2.2
    rw [assemble, reach]
    rw [f4, if_neg (by omega), Nat.max_eq_left hle]
    exact ih fun x hx => hp x (by simp [hx])

/-- Pieces of one message that leave no gap, up to the point where the message is complete, are joined to
the part of the message they reach. -/
theorem assemble_take {t : UInt8} {q : Nat} {body : Bytes} (m : List Hs) :
    ∀ {l : List Hs} {e : Nat}, (∀ x ∈ l, Piece t q body x) → e ≤ body.length →
      cover q body.length (l ++ m) e = .complete →
      assemble l e (body.take e) = body.take (reach l e) ∧ reach l e ≤ body.length := by
  intro l
  induction l with
  | nil => intro e _ he _; exact ⟨rfl, he⟩
  | cons h rest ih =>
    intro e hp he hc
    have ph := hp h (by simp)
    obtain ⟨f1, f2, f3, f4⟩ := piece_fields ph
    obtain ⟨_, hb, hle⟩ := ph
    rw [List.cons_append, cover, if_neg (by rw [f2]; simp)] at hc
    split at hc
    · cases hc
    rename_i hoff
    rw [assemble, reach]
    dsimp only at hc ⊢
    rw [f4] at hc ⊢
    have hstep : (if e - h.header.fragOff < h.body.length
          then body.take e ++ h.body.drop (e - h.header.fragOff) else body.take e)
        = body.take (max e (h.header.fragOff + h.body.length)) := by
      split
      · rename_i hlt
        have hj := take_join body e h.header.fragOff h.body.length (by omega) (by omega)
        rw [← hb] at hj
        rw [hj, Nat.max_eq_right (by omega)]
      · rw [Nat.max_eq_left (by omega)]
    rw [hstep]
    split at hc
    · rename_i hfull
      rw [hfull]
      have hd := assemble_done (l := rest) (fun x hx => hp x (by simp [hx]))
      rw [List.take_length, hd.1, hd.2]
      simp
    · exact ih (fun x hx => hp x (by simp [hx])) (by omega) hc

/-- Pieces in the order of their offsets that cover the rest of the message complete it. -/
theorem cover_complete {t : UInt8} {q : Nat} {body : Bytes} (m : List Hs) :
    ∀ {l : List Hs} {e : Nat}, (∀ x ∈ l, Piece t q body x) → l ≠ [] → e ≤ body.length →
      l.Pairwise (fun a b => a.header.fragOff ≤ b.header.fragOff) →
      (∀ i, e ≤ i → i < body.length →
        ∃ h ∈ l, h.header.fragOff ≤ i ∧ i < h.header.fragOff + h.body.length) →
      cover q body.length (l ++ m) e = .complete ∧ reach l e = body.length := by
  intro l
  induction l with
  | nil => intro e _ h; exact absurd rfl h
  | cons h rest ih =>
    intro e hp _ he hs hcov
    have ph := hp h (by simp)
    obtain ⟨f1, f2, f3, f4⟩ := piece_fields ph
    obtain ⟨_, hb, hle⟩ := ph
    rw [List.pairwise_cons] at hs
    have hoff : h.header.fragOff ≤ e := by
      by_cases hlt : e < body.length
      · obtain ⟨x, hx, h1, h2⟩ := hcov e (Nat.le_refl _) hlt
        rcases List.mem_cons.1 hx with rfl | hx
        · exact h1
        · have := hs.1 x hx; omega
      · omega
    rw [List.cons_append, cover, if_neg (by rw [f2]; simp), if_neg (by omega), reach]
    dsimp only
    rw [f4]
    split
    · rename_i hfull
      rw [hfull]
      exact ⟨rfl, (assemble_done (l := rest) (fun x hx => hp x (by simp [hx]))).2⟩
    · rename_i hne
      have hcov' : ∀ i, max e (h.header.fragOff + h.body.length) ≤ i → i < body.length →
          ∃ x ∈ rest, x.header.fragOff ≤ i ∧ i < x.header.fragOff + x.body.length := by
        intro i h1 h2
        obtain ⟨x, hx, h3, h4⟩ := hcov i (by omega) h2
        rcases List.mem_cons.1 hx with rfl | hx
        · omega
        · exact ⟨x, hx, h3, h4⟩
      refine ih (fun x hx => hp x (by simp [hx])) ?_ (by omega) hs.2 hcov'
      rintro rfl
      obtain ⟨x, hx, _⟩ := hcov' _ (Nat.le_refl _) (by omega)
      cases hx

theorem cover_more {q n : Nat} (m : List Hs) :
    ∀ {l : List Hs} {e : Nat}, cover q n l e = .complete → cover q n (l ++ m) e = .complete := by
  intro l
  induction l with
  | nil => intro e h; cases h
  | cons h rest ih =>
    intro e hc
    rw [List.cons_append]
    unfold cover at hc ⊢
    split at hc
    · rename_i h1; rw [if_pos h1]; exact ih hc
    rename_i h1
    rw [if_neg h1]
    split at hc
    · cases hc
    rename_i h2
    rw [if_neg h2]
    dsimp only at hc ⊢
    split at hc
    · rename_i h3; rw [if_pos h3]
    · rename_i h3; rw [if_neg h3]; exact ih hc

theorem assembled_eq {first : Hs} {run : List Hs} (h : first.header.fragLen = first.body.length)
    (h0 : first.header.fragOff = 0) :
    assembled first run = assemble (first :: run) 0 [] := by
  rw [assemble]
  rw [assembled, h0, h]
  have : (if 0 - 0 < first.body.length then [] ++ first.body.drop (0 - 0) else []) = first.body := by
    split
    · rfl
    · exact (List.length_eq_zero_iff.1 (by omega)).symm
  rw [this]
  simp

/-! ## The receive queue -/

theorem view_prefix (rx : List (List Rx)) : ∃ m, completeView rx = [] ∨ nextView rx = completeView rx ++ m := by
  unfold completeView nextView
  generalize rx.flatten.dropWhile (·.isHandled) = l
  refine ⟨(l.drop 50).flatMap (·.hss), ?_⟩
  have e : l.flatMap (·.hss) = (l.take 50).flatMap (·.hss) ++ (l.drop 50).flatMap (·.hss) := by
    rw [← List.flatMap_append, List.take_append_drop]
  rw [e, List.dropWhile_append]
  split
  · rename_i h; exact Or.inl (List.isEmpty_iff.1 h)
  · exact Or.inr rfl

theorem takeWhile_split {α : Type} (p : α → Bool) (l : List α) : ∃ m, l = l.takeWhile p ++ m :=
  ⟨_, (List.takeWhile_append_dropWhile (p := p) (l := l)).symm⟩

/-- **C11, never anything else.** Let all unhandled fragments that carry the expected number be cut from one
message, in any order, overlapping in any way, with or without gaps, and mixed with fragments of any other
messages. If a message is handed out, it is that one: its type, exactly its body, and the transcript grows by
exactly that message. -/
theorem only_the_message {env : Env} {allow intoTr : Bool} {t wanted : UInt8} {body : Bytes} {s s' : Eng}
    {b : Body}
    (hp : ∀ x ∈ nextView s.rx, x.header.messageSeq = s.peerSeq → Piece t s.peerSeq body x)
    (h : nextHandshakeWith env allow intoTr wanted s = (.ok (some b), s')) :
    t = wanted ∧ (∃ left, parseBody env allow t s.suite body = some (left, b)
        ∧ (left = [] ∨ isUnknownType t = true))
      ∧ s'.transcript = (if intoTr then s.transcript ++ t :: (beBytes 3 body.length ++ body) else s.transcript)
      ∧ s'.log = .taken s.peerSeq t body :: s.log := by
  unfold nextHandshakeWith at h
  split at h
  · cases h
  rename_i hcm
  have hcomp : hasComplete s wanted = true := by simpa using hcm
  unfold hasComplete at hcomp
  split at hcomp
  · cases hcomp
  rename_i first rest hview
  split at hcomp
  · cases hcomp
  rename_i hseq
  split at hcomp
  · cases hcomp
  rename_i htype
  have hseq : first.header.messageSeq = s.peerSeq := by simpa using hseq
  have htype : first.header.msgType = wanted := by simpa using htype
  obtain ⟨m, hm | hm⟩ := view_prefix s.rx
  · rw [hm] at hview; cases hview
  rw [hview] at hm
  rw [hm] at h
  simp only [List.cons_append] at h
  have hcov : cover first.header.messageSeq first.header.length ((first :: rest) ++ m) 0 = .complete :=
    cover_more m (by simpa using hcomp)
  rw [List.cons_append] at hcov
  have pf : Piece t s.peerSeq body first := hp first (by rw [hm]; simp) hseq
  obtain ⟨f1, f2, f3, f4⟩ := piece_fields pf
  have h0 : first.header.fragOff = 0 := by
    rw [cover, if_neg (by simp)] at hcov
    split at hcov
    · cases hcov
    · omega
  unfold defragment fragmentRun at h
  dsimp only at h
  split at h
  · cases h
  rename_i hlen
  split at h
  · cases h
  rename_i hfull
  rw [List.tail_cons] at hfull h
  obtain ⟨m2, hm2⟩ := takeWhile_split (fun h => h.header.msgType == first.header.msgType &&
    h.header.messageSeq == first.header.messageSeq) (rest ++ m)
  generalize hrun : (rest ++ m).takeWhile (fun h => h.header.msgType == first.header.msgType &&
    h.header.messageSeq == first.header.messageSeq) = run at *
  have prun : ∀ x ∈ first :: run, Piece t s.peerSeq body x := by
    intro x hx
    rcases List.mem_cons.1 hx with rfl | hx
    · exact pf
    · refine hp x ?_ ?_
      · rw [hm, List.cons_append, hm2]; simp [hx]
      · rw [← hrun] at hx
        have hx := List.all_eq_true.1 (List.all_takeWhile (l := rest ++ m)) x hx
        simp only [Bool.and_eq_true, beq_iff_eq] at hx
        rw [hx.2, hseq]
  rw [hm2, f2, f3, ← List.cons_append] at hcov
  obtain ⟨a1, a2⟩ := assemble_take (l := first :: run) m2 prun (Nat.zero_le _) hcov
  rw [List.take_zero, ← assembled_eq f4 h0] at a1
  have hbody : assembled first run = body := by
    rw [a1] at hfull ⊢
    rw [f3, List.length_take] at hfull
    exact List.take_of_length_le (by omega)
  rw [hbody, f1, f2, f3] at h
  split at h
  · cases h
  rename_i left b' hpb
  split at h
  · cases h
  rename_i hleft
  cases h
  refine ⟨by rw [← htype, f1], ⟨left, hpb, ?_⟩, rfl, rfl⟩
  cases left with
  | nil => exact Or.inl rfl
  | cons a l => exact Or.inr (by simpa using hleft)

theorem flatMap_dropWhile (l : List Rx) :
    ((l.dropWhile (·.isHandled)).flatMap (·.hss)).dropWhile (·.handled)
      = (l.flatMap (·.hss)).dropWhile (·.handled) := by
  induction l with
  | nil => rfl
  | cons r l ih =>
    rw [List.dropWhile_cons]
    split
    · rename_i h
      rw [ih, List.flatMap_cons, List.dropWhile_append]
      rw [if_pos]
      unfold Rx.isHandled at h
      split at h
      · rename_i h2; simp [List.isEmpty_iff.1 h2]
      · exact List.isEmpty_iff.2 (dropWhile_all (by simpa using h))
    · rfl

theorem dropWhile_old {old l : List Rx} (h : ∀ r ∈ old, r.isHandled = true) :
    (old ++ l).dropWhile (·.isHandled) = l.dropWhile (·.isHandled) := by
  rw [List.dropWhile_append, if_pos]
  exact List.isEmpty_iff.2 (dropWhile_all h)

theorem Holds.nextView {q : Nat} {hs : List Hs} {rx : List (List Rx)} (h : Holds q hs rx) (hne : hs ≠ [])
    (hf : ∀ x ∈ hs, x.handled = false) :
    ∃ m, nextView rx = hs ++ m ∧ ∀ x ∈ m, x.header.messageSeq ≠ q := by
  obtain ⟨old, cur, more, done, after, e, ho, hl, ec, hd, ha, hm⟩ := h
  refine ⟨after ++ more.flatMap (·.hss), ?_, ?_⟩
  · unfold E13.nextView
    rw [e, List.append_assoc, dropWhile_old ho, flatMap_dropWhile, List.flatMap_append, ec, List.append_assoc,
      List.append_assoc, dropWhile_done hd, dropWhile_fresh hne hf]
  · intro x hx
    rcases List.mem_append.1 hx with hx | hx
    · exact ha x hx
    · exact hm x hx

theorem dropWhile_take {l m : List Rx} {n : Nat} (hn : l.length ≤ n) :
    ∃ k, (((l ++ m).dropWhile (·.isHandled)).take n).flatMap (·.hss)
      = ((l.dropWhile (·.isHandled)).flatMap (·.hss)) ++ k := by
  rw [List.dropWhile_append]
  split
  · rename_i h
    have : l.dropWhile (·.isHandled) = [] := List.isEmpty_iff.1 h
    rw [this]
    exact ⟨_, rfl⟩
  · have hl : (l.dropWhile (·.isHandled)).length ≤ n := Nat.le_trans (List.dropWhile_suffix _).length_le hn
    rw [List.take_append, List.take_of_length_le hl, List.flatMap_append]
    exact ⟨_, rfl⟩

theorem Holds.completeView {q : Nat} {hs : List Hs} {rx : List (List Rx)} (h : Holds q hs rx) (hne : hs ≠ [])
    (hf : ∀ x ∈ hs, x.handled = false) :
    ∃ m, completeView rx = hs ++ m := by
  obtain ⟨old, cur, more, done, after, e, ho, hl, ec, hd, ha, hm⟩ := h
  obtain ⟨k, hk⟩ := dropWhile_take (m := more) hl
  refine ⟨after ++ k, ?_⟩
  unfold E13.completeView
  rw [e, List.append_assoc, dropWhile_old ho, hk, List.dropWhile_append, flatMap_dropWhile, ec,
    List.append_assoc, dropWhile_done hd, dropWhile_fresh hne hf]
  rw [if_neg]
  · simp
  · cases hs with
    | nil => exact absurd rfl hne
    | cons a l => simp

/-- The state after taking the message. -/
def tookState (s : Eng) (n : Nat) (t : UInt8) (body : Bytes) (intoTr : Bool) : Eng :=
  { s with
    rx := markQueue false n s.rx
    transcript := if intoTr then s.transcript ++ transcriptOf t body.length body else s.transcript
    log := .taken s.peerSeq t body :: s.log }

/-- **C11 and C10 (DTLS 1.3), receiver.** If at most 50 records hold pieces of a message, at most 50, as the
next unhandled fragments, in the order of their offsets, overlapping arbitrarily and covering the message, and
the message has the expected number, it is taken: exactly its body is parsed and the transcript grows by the
message as one unfragmented piece. -/
theorem receiver_reassembles {env : Env} {allow intoTr : Bool} {t : UInt8} {body : Bytes} {hs : List Hs}
    {s : Eng} {b : Body}
    (hpc : ∀ x ∈ hs, Piece t s.peerSeq body x ∧ x.handled = false)
    (hsort : hs.Pairwise (fun a b => a.header.fragOff ≤ b.header.fragOff)) (hcov : Covers body hs)
    (hlen : hs.length ≤ 50) (hh : Holds s.peerSeq hs s.rx)
    (hp : parseBody env allow t s.suite body = some ([], b)) :
    nextHandshakeWith env allow intoTr t s = (.ok (some b), tookState s hs.length t body intoTr) := by
  obtain ⟨hne, hcov⟩ := hcov
  have hf : ∀ x ∈ hs, x.handled = false := fun x hx => (hpc x hx).2
  obtain ⟨m1, e1⟩ := hh.completeView hne hf
  obtain ⟨m2, e2, hm2⟩ := hh.nextView hne hf
  obtain ⟨c1, r1⟩ := cover_complete m1 (fun x hx => (hpc x hx).1) hne (Nat.zero_le _) hsort
    (fun i _ hi => hcov i hi)
  obtain ⟨a1, _⟩ := assemble_take m1 (fun x hx => (hpc x hx).1) (Nat.zero_le _) c1
  rw [r1, List.take_zero, List.take_length] at a1
  cases hs with
  | nil => exact absurd rfl hne
  | cons x rest =>
    obtain ⟨g1, g3, g2, g4⟩ := piece_fields (hpc x (by simp)).1
    have g5 : x.header.fragOff = 0 := by
      rw [List.cons_append, cover, if_neg (by rw [g3]; simp)] at c1
      split at c1
      · cases c1
      · omega
    have hcomp : hasComplete s t = true := by
      unfold hasComplete
      rw [e1, List.cons_append]
      dsimp only
      rw [if_neg (by rw [g3]; simp), if_neg (by rw [g1]; simp), g3, g2]
      rw [List.cons_append] at c1
      simp [c1]
    have hrun : fragmentRun x (rest ++ m2) = x :: rest := by
      unfold fragmentRun
      congr 1
      apply takeWhile_cut
      · intro y hy
        obtain ⟨a1, a2, _⟩ := piece_fields (hpc y (by simp [hy])).1
        rw [a1, a2, g1, g3]; simp
      · intro y hy
        rw [g3]; simp [hm2 y hy]
    unfold nextHandshakeWith
    rw [hcomp, e2]
    simp only [Bool.not_true, Bool.false_eq_true, if_false, List.cons_append]
    unfold defragment
    rw [hrun]
    dsimp only
    rw [if_neg (by omega), List.tail_cons, assembled_eq g4 g5, a1, g1, g2, g3, if_neg (by simp), hp]
    rfl

/-! ## Arrivals in any order -/

/-- A datagram holding one record with exactly the fragment `h`. -/
def Carries (h : Hs) (rs : List Rx) : Prop := ∃ r, rs = [r] ∧ r.hss = [h]

theorem Carries.unique {h h' : Hs} {rs : List Rx} (a : Carries h rs) (b : Carries h' rs) : h = h' := by
  obtain ⟨r1, e1, e2⟩ := a
  obtain ⟨r2, e3, e4⟩ := b
  rw [e1] at e3; cases e3
  rw [e2] at e4
  injection e4

theorem hsKey_carries {h : Hs} {rs : List Rx} (hc : Carries h rs) : hsKey rs = pos h := by
  obtain ⟨r, rfl, hr⟩ := hc
  simp [hsKey, hr, pos]

/-- The queue holds exactly the fragments `l`, each in its own datagram, in this order. -/
inductive Queue : List Hs → List (List Rx) → Prop
  | nil : Queue [] []
  | cons {h : Hs} {l : List Hs} {rs : List Rx} {rx : List (List Rx)} :
      Carries h rs → Queue l rx → Queue (h :: l) (rs :: rx)

theorem Queue.length {l : List Hs} {rx : List (List Rx)} (h : Queue l rx) : rx.length = l.length := by
  induction h with
  | nil => rfl
  | cons _ _ ih => simp [ih]

theorem Queue.keys {l : List Hs} {rx : List (List Rx)} (h : Queue l rx) : rx.map hsKey = l.map pos := by
  induction h with
  | nil => rfl
  | cons hc _ ih => simp [ih, hsKey_carries hc]

theorem Queue.append {l m : List Hs} {rx ry : List (List Rx)} (h : Queue l rx) (h' : Queue m ry) :
    Queue (l ++ m) (rx ++ ry) := by
  induction h with
  | nil => exact h'
  | cons hc _ ih => exact .cons hc ih

theorem Queue.split {l m : List Hs} {rx : List (List Rx)} (h : Queue (l ++ m) rx) :
    ∃ ra rb, rx = ra ++ rb ∧ Queue l ra ∧ Queue m rb := by
  induction l generalizing rx with
  | nil => exact ⟨[], rx, rfl, .nil, h⟩
  | cons a l ih =>
    cases h with
    | cons hc h =>
      obtain ⟨ra, rb, rfl, h1, h2⟩ := ih h
      exact ⟨_ :: ra, rb, rfl, .cons hc h1, h2⟩

theorem Queue.takeDrop {l : List Hs} {rx : List (List Rx)} (h : Queue l rx) (i : Nat) :
    Queue (l.take i) (rx.take i) ∧ Queue (l.drop i) (rx.drop i) := by
  induction h generalizing i with
  | nil => simpa using Queue.nil
  | cons hc h ih =>
    cases i with
    | zero => exact ⟨.nil, .cons hc h⟩
    | succ i => exact ⟨.cons hc (ih i).1, (ih i).2⟩

theorem Queue.flat {l : List Hs} {rx : List (List Rx)} (h : Queue l rx) :
    rx.flatten.flatMap (·.hss) = l ∧ rx.flatten.length = l.length := by
  induction h with
  | nil => exact ⟨rfl, rfl⟩
  | cons hc _ ih =>
    obtain ⟨r, rfl, hr⟩ := hc
    simp [hr, ih.1, ih.2]

theorem Queue.set {l : List Hs} {rx : List (List Rx)} (h : Queue l rx) {x : Hs} {rs : List Rx}
    (hc : Carries x rs) (i : Nat) : Queue (l.set i x) (rx.set i rs) := by
  induction h generalizing i with
  | nil => exact .nil
  | cons hc' h ih =>
    cases i with
    | zero => exact .cons hc h
    | succ i => exact .cons hc' (ih i)

theorem Queue.get {l : List Hs} {rx : List (List Rx)} (h : Queue l rx) {i : Nat} {x : Hs}
    (hx : l[i]? = some x) : ∃ rs, rx[i]? = some rs ∧ Carries x rs := by
  induction h generalizing i with
  | nil => simp at hx
  | cons hc h ih =>
    cases i with
    | zero =>
      simp only [List.getElem?_cons_zero, Option.some.injEq] at hx
      subst hx
      exact ⟨_, rfl, hc⟩
    | succ i => exact ih (by simpa using hx)

/-- The fragment is the whole message. -/
def Whole (h : Hs) : Prop := h.header.length = h.header.fragLen

instance (h : Hs) : Decidable (Whole h) := by unfold Whole; infer_instance

/-- Replacing one member by one in the same place keeps the order. -/
theorem sorted_set {l : List Hs} (hs : l.Pairwise Before) {i : Nat} {x h : Hs} (hx : l[i]? = some x)
    (he : pos x = pos h) : (l.set i h).Pairwise Before := by
  have hb : ∀ y, (Before x y ↔ Before h y) ∧ (Before y x ↔ Before y h) := by
    intro y
    rw [← cmp_lt, ← cmp_lt, ← cmp_lt, ← cmp_lt, he]
    exact ⟨Iff.rfl, Iff.rfl⟩
  induction l generalizing i with
  | nil => exact .nil
  | cons a l ih =>
    rw [List.pairwise_cons] at hs
    cases i with
    | zero =>
      simp only [List.getElem?_cons_zero, Option.some.injEq] at hx
      subst hx
      rw [List.set_cons_zero, List.pairwise_cons]
      exact ⟨fun y hy => (hb y).1.1 (hs.1 y hy), hs.2⟩
    | succ i =>
      have hx' : l[i]? = some x := by simpa using hx
      rw [List.set_cons_succ, List.pairwise_cons]
      refine ⟨?_, ih hs.2 hx'⟩
      intro y hy
      rcases List.mem_or_eq_of_mem_set hy with hy | rfl
      · exact hs.1 y hy
      · exact (hb a).2.1 (hs.1 x (List.mem_of_getElem? hx'))

theorem mem_set_of_ne {l : List Hs} {i : Nat} {x h y : Hs} (hx : l[i]? = some x) (hy : y ∈ l) (hne : y ≠ x) :
    y ∈ l.set i h := by
  obtain ⟨j, hj, rfl⟩ := List.mem_iff_getElem.1 hy
  refine List.mem_iff_getElem.2 ⟨j, by simpa using hj, ?_⟩
  rw [List.getElem_set_ne]
  rintro rfl
  rw [List.getElem?_eq_getElem hj] at hx
  exact hne (Option.some.inj hx)

/-- One datagram carrying the fragment `h` arrives while the handshake is going on: it is put in its place,
or there is one in its place, which it replaces exactly if it is a whole message and the other is not. -/
theorem insert_one {env : Env} {s : Eng} {l : List Hs} {rs : List Rx} {h : Hs}
    (hse : SearchOk env.search) (hq : Queue l s.rx) (hs : l.Pairwise Before) (hc : Carries h rs)
    (hrel : s.release = false) (hnew : s.peerSeq ≤ h.header.messageSeq) (hroom : s.rx.length < s.cfg.maxRx)
    (hfr : ∀ x ∈ l, x.handled = false) :
    ∃ l' rx' t rc, insertIncoming env rs s = (.ok (), { s with rx := rx', tick := t, received := rc })
      ∧ Queue l' rx' ∧ l'.Pairwise Before ∧ (∀ x ∈ l', x = h ∨ x ∈ l)
      ∧ (∀ x ∈ l, x ∈ l' ∨ (pos x = pos h ∧ h ∈ l' ∧ Whole h))
      ∧ (h ∈ l' ∨ ∃ x ∈ l', pos x = pos h ∧ (Whole x ∨ ¬ Whole h)) := by
  obtain ⟨r, rfl, hr⟩ := hc
  have hcar : Carries h [r] := ⟨r, rfl, hr⟩
  unfold insertIncoming
  rw [if_neg (by omega)]
  dsimp only
  rw [hr]
  dsimp only
  have hres : maybeResend env [r] s = (.ok (), s) := by
    unfold maybeResend
    simp only [List.findSome?, Rx.firstDupe, hr, List.head?_cons, Option.bind_some]
    unfold dupeTriggersResend
    repeat' split
    all_goals first
      | rfl
      | skip
    all_goals
      rename_i hd hlt
      repeat' split at hd
    all_goals simp_all
    all_goals omega
  simp only [M.bind, hres, M.andThen]
  unfold insertHandshakeTail
  rw [if_neg (by omega), if_neg (by rw [hrel]; simp)]
  unfold insertHs
  dsimp only
  have hkeys : (s.rx.map fun item => cmpPair (hsKey item) (hsKey [r])) = l.map fun x => cmpPair (pos x) (pos h) := by
    rw [hsKey_carries hcar]
    have := congrArg (List.map fun k => cmpPair k (pos h)) hq.keys
    simpa [List.map_map, Function.comp_def] using this
  have hso := hse s.tick (l.map fun x => cmpPair (pos x) (pos h))
  rw [hkeys]
  cases hf : env.search s.tick (l.map fun x => cmpPair (pos x) (pos h)) with
  | at_ i =>
    rw [hf] at hso
    dsimp only at hso ⊢
    rw [List.getElem?_map] at hso
    obtain ⟨y, hy, hyc⟩ := Option.map_eq_some_iff.1 hso
    have hpos := cmp_eq.1 hyc
    have hym := List.mem_of_getElem? hy
    obtain ⟨ry, hry, r2, rfl, hr2⟩ := hq.get hy
    rw [hry]
    dsimp only
    have hsr : shouldReplace [r2] [r] = (decide (¬ Whole y) && decide (Whole h)) := by
      rw [Bool.eq_iff_iff, Bool.and_eq_true, decide_eq_true_eq, decide_eq_true_eq]
      simp [shouldReplace, firstHs, hr, hr2, Rx.isHandled, hfr y hym, Whole]
    rw [hsr]
    split
    · rename_i hrep
      simp only [Bool.and_eq_true, decide_eq_true_eq] at hrep
      have hmem : h ∈ l.set i h := List.mem_set (by
        have := List.getElem?_eq_some_iff.1 hy
        exact this.1) h
      refine ⟨l.set i h, _, _, _, rfl, hq.set hcar i, sorted_set hs hy hpos, ?_, ?_, Or.inl hmem⟩
      · intro x hx
        rcases List.mem_or_eq_of_mem_set hx with hx | hx
        · exact Or.inr hx
        · exact Or.inl hx
      · intro x hx
        by_cases hxy : x = y
        · subst hxy; exact Or.inr ⟨hpos, hmem, hrep.2⟩
        · exact Or.inl (mem_set_of_ne hy hx hxy)
    · rename_i hrep
      refine ⟨l, s.rx, _, s.received, rfl, hq, hs, fun x hx => Or.inr hx, fun x hx => Or.inl hx, ?_⟩
      refine Or.inr ⟨y, hym, hpos, ?_⟩
      by_cases hw : Whole y
      · exact Or.inl hw
      · refine Or.inr fun hwh => hrep ?_
        simp [hw, hwh]
  | insertAt i =>
    rw [hf] at hso
    dsimp only at hso ⊢
    obtain ⟨_, hso⟩ := hso
    have hpw : (l.map fun x => cmpPair (pos x) (pos h)).Pairwise (fun a b => a.ctorIdx ≤ b.ctorIdx) := by
      rw [List.pairwise_map]
      refine hs.imp ?_
      intro a b hab
      cases ha : cmpPair (pos a) (pos h) with
      | lt => exact Nat.zero_le _
      | eq =>
        have : cmpPair (pos b) (pos h) = .gt := by
          rw [← cmp_eq.1 ha]; exact cmp_gt.2 hab
        rw [this]; decide
      | gt =>
        have : cmpPair (pos b) (pos h) = .gt := cmp_gt.2 ((cmp_gt.1 ha).trans hab)
        rw [this]; exact Nat.le_refl _
    obtain ⟨h1, h2⟩ := hso hpw
    rw [← List.map_take, ] at h1
    rw [← List.map_drop] at h2
    obtain ⟨q1, q2⟩ := hq.takeDrop i
    have hsplit : ∀ x, x ∈ l ↔ x ∈ l.take i ∨ x ∈ l.drop i := by
      intro x
      rw [← List.mem_append, List.take_append_drop]
    refine ⟨l.take i ++ h :: l.drop i, _, _, _, rfl, q1.append (.cons hcar q2), ?_, ?_, ?_, Or.inl (by simp)⟩
    · rw [List.pairwise_append, List.pairwise_cons]
      refine ⟨hs.sublist (List.take_sublist ..), ⟨?_, hs.sublist (List.drop_sublist ..)⟩, ?_⟩
      · intro y hy
        exact cmp_gt.1 (h2 _ (List.mem_map_of_mem hy))
      · intro a ha b hb
        have hah := cmp_lt.1 (h1 _ (List.mem_map_of_mem ha))
        rcases List.mem_cons.1 hb with rfl | hb
        · exact hah
        · exact hah.trans (cmp_gt.1 (h2 _ (List.mem_map_of_mem hb)))
    · intro x hx
      rw [hsplit]
      rw [List.mem_append, List.mem_cons] at hx
      rcases hx with hx | hx | hx
      · exact Or.inr (Or.inl hx)
      · exact Or.inl hx
      · exact Or.inr (Or.inr hx)
    · intro x hx
      refine Or.inl ?_
      rw [List.mem_append, List.mem_cons]
      rcases (hsplit x).1 hx with hx | hx
      · exact Or.inl hx
      · exact Or.inr (Or.inr hx)

/-- Parsed datagrams arrive one after the other. -/
def arrivals (env : Env) : List (List Rx) → E Unit
  | [] => M.pure ()
  | rs :: rest => M.bind (insertIncoming env rs) fun _ => arrivals env rest

/-- A handshake message. -/
structure Msg where
  t : UInt8
  body : Bytes

/-- `h` is a piece of one of the messages `ms`, which are numbered from `p`. -/
def Of (p : Nat) (ms : List Msg) (h : Hs) : Prop :=
  ∃ i m, ms[i]? = some m ∧ Piece m.t (p + i) m.body h

theorem whole_iff {t : UInt8} {q : Nat} {body : Bytes} {h : Hs} (hp : Piece t q body h) :
    Whole h ↔ h.body.length = body.length := by
  obtain ⟨_, _, f3, f4⟩ := piece_fields hp
  unfold Whole
  rw [f3, f4]
  exact eq_comm

/-- Of two pieces of a flight in the same place, a whole one is at least as long. -/
theorem Of.le {p : Nat} {ms : List Msg} {x y : Hs} (hx : Of p ms x) (hy : Of p ms y) (he : pos x = pos y)
    (hw : Whole y) : x.body.length ≤ y.body.length := by
  obtain ⟨i, m, hi, px⟩ := hx
  obtain ⟨j, m', hj, py⟩ := hy
  have e1 : x.header.messageSeq = y.header.messageSeq := congrArg Prod.fst he
  rw [(piece_fields px).2.1, (piece_fields py).2.1] at e1
  have hij : i = j := by omega
  subst hij
  rw [hi] at hj
  cases hj
  rw [(whole_iff py).1 hw]
  have := px.2.2
  omega

theorem nodup_length {α : Type} [DecidableEq α] {l m : List α} (hl : l.Nodup) (h : ∀ x ∈ l, x ∈ m) :
    l.length ≤ m.length := by
  induction l generalizing m with
  | nil => exact Nat.zero_le _
  | cons a l ih =>
    rw [List.nodup_cons] at hl
    have ha := h a (by simp)
    have := ih (m := m.erase a) hl.2 (fun x hx => (List.mem_erase_of_ne (by rintro rfl; exact hl.1 hx)).2
      (h x (by simp [hx])))
    rw [List.length_erase_of_mem ha] at this
    have := List.length_pos_of_mem ha
    simp only [List.length_cons]
    omega

theorem sorted_nodup {l : List Hs} (h : l.Pairwise Before) : (l.map pos).Nodup := by
  rw [List.Nodup, List.pairwise_map]
  refine h.imp ?_
  intro a b hab he
  have := cmp_lt.2 hab
  rw [cmp_eq.2 he] at this
  cases this

/-- What the queue must hold of the fragments that arrived: one at least as long in the same place. -/
def Kept (l : List Hs) (x : Hs) : Prop := ∃ y ∈ l, pos y = pos x ∧ x.body.length ≤ y.body.length

theorem arrivals_queue {env : Env} (hse : SearchOk env.search) {p : Nat} {ms : List Msg}
    {ps : List (Nat × Nat)} (ds : List (List Rx)) : ∀ {s : Eng} {l : List Hs},
      Queue l s.rx → l.Pairwise Before → s.release = false → ps.length < s.cfg.maxRx →
      s.peerSeq = p →
      (∀ x ∈ l, x.handled = false ∧ Of p ms x ∧ pos x ∈ ps) →
      (∀ rs ∈ ds, ∃ h, Carries h rs ∧ h.handled = false ∧ Of p ms h ∧ pos h ∈ ps) →
      (∀ x y : Hs, (x ∈ l ∨ ∃ rs ∈ ds, Carries x rs) → (∃ rs ∈ ds, Carries y rs) → pos x = pos y →
        x = y ∨ Whole x ∨ Whole y) →
      ∃ l' rx' t rc, arrivals env ds s = (.ok (), { s with rx := rx', tick := t, received := rc })
        ∧ Queue l' rx' ∧ l'.Pairwise Before
        ∧ (∀ x ∈ l', x.handled = false ∧ Of p ms x ∧ pos x ∈ ps)
        ∧ (∀ x, x ∈ l ∨ (∃ rs ∈ ds, Carries x rs) → Kept l' x) := by
  induction ds with
  | nil =>
    intro s l hq hl _ _ _ hfr _ _
    refine ⟨l, s.rx, s.tick, s.received, rfl, hq, hl, hfr, ?_⟩
    rintro x (hx | ⟨_, h, _⟩)
    · exact ⟨x, hx, rfl, Nat.le_refl _⟩
    · cases h
  | cons rs ds ih =>
    intro s l hq hl hrel hroom hpeer hfr hds hcompat
    obtain ⟨h, hc, hhf, hof, hps⟩ := hds rs (by simp)
    have hlen : s.rx.length < s.cfg.maxRx := by
      rw [hq.length]
      have := nodup_length (sorted_nodup hl) (m := ps) (by
        intro k hk
        obtain ⟨x, hx, rfl⟩ := List.mem_map.1 hk
        exact (hfr x hx).2.2)
      rw [List.length_map] at this
      omega
    have hnew : s.peerSeq ≤ h.header.messageSeq := by
      obtain ⟨i, m, _, px⟩ := hof
      rw [(piece_fields px).2.1, hpeer]; omega
    obtain ⟨l1, rx1, t1, rc1, e1, q1, p1, m1, k1, n1⟩ := insert_one (env := env) hse hq hl hc hrel hnew hlen
      (fun x hx => (hfr x hx).1)
    have hfr1 : ∀ x ∈ l1, x.handled = false ∧ Of p ms x ∧ pos x ∈ ps := by
      intro x hx
      rcases m1 x hx with rfl | hx
      · exact ⟨hhf, hof, hps⟩
      · exact hfr x hx
    obtain ⟨l2, rx2, t2, rc2, e2, q2, p2, m2, k2⟩ := ih (s := { s with rx := rx1, tick := t1, received := rc1 })
      q1 p1 hrel hroom hpeer hfr1 (fun r hr => hds r (by simp [hr])) (by
        intro x y hx hy he
        refine hcompat x y ?_ ?_ he
        · rcases hx with hx | ⟨r, hr, hx⟩
          · rcases m1 x hx with rfl | hx
            · exact Or.inr ⟨rs, by simp, hc⟩
            · exact Or.inl hx
          · exact Or.inr ⟨r, by simp [hr], hx⟩
        · obtain ⟨r, hr, hy⟩ := hy
          exact ⟨r, by simp [hr], hy⟩)
    refine ⟨l2, rx2, t2, rc2, ?_, q2, p2, m2, ?_⟩
    · unfold arrivals
      simp only [M.bind, e1, M.andThen, e2]
    · have hup : ∀ {x y : Hs}, Kept l2 y → pos y = pos x → x.body.length ≤ y.body.length → Kept l2 x := by
        rintro x y ⟨z, hz, h1, h2⟩ he hle
        exact ⟨z, hz, h1.trans he, Nat.le_trans hle h2⟩
      rintro x (hx | ⟨r, hr, hx⟩)
      · rcases k1 x hx with hx1 | ⟨he, hm, hw⟩
        · exact k2 x (Or.inl hx1)
        · exact hup (k2 h (Or.inl hm)) he.symm ((hfr x hx).2.1.le hof he hw)
      · rcases List.mem_cons.1 hr with rfl | hr
        · rw [hx.unique hc]
          rcases n1 with hm | ⟨y, hy, he, hy2⟩
          · exact k2 h (Or.inl hm)
          · rcases m1 y hy with rfl | hyl
            · exact k2 _ (Or.inl hy)
            rcases hcompat y h (Or.inl hyl) ⟨_, by simp, hc⟩ he with rfl | hw | hw
            · exact k2 _ (Or.inl hy)
            · exact hup (k2 y (Or.inl hy)) he (hof.le (hfr y hyl).2.1 he.symm hw)
            · rcases hy2 with hy2 | hy2
              · exact hup (k2 y (Or.inl hy)) he (hof.le (hfr y hyl).2.1 he.symm hy2)
              · exact absurd hw hy2
        · exact k2 x (Or.inr ⟨r, hr, hx⟩)

/-! ## Taking a flight -/

/-- The fragments `l` are, in order, covering pieces of the messages, at most 50 of each. -/
def Ready : Nat → List Msg → List Hs → Prop
  | _, [], l => l = []
  | p, m :: ms, l => ∃ g l', l = g ++ l' ∧ (∀ x ∈ g, Piece m.t p m.body x ∧ x.handled = false)
      ∧ g.Pairwise (fun a b => a.header.fragOff ≤ b.header.fragOff) ∧ Covers m.body g ∧ g.length ≤ 50
      ∧ Ready (p + 1) ms l'

theorem Ready.ge {ms : List Msg} : ∀ {p : Nat} {l : List Hs}, Ready p ms l →
    ∀ h ∈ l, p ≤ h.header.messageSeq ∧ h.handled = false := by
  induction ms with
  | nil => intro p l hr h hm; rw [show l = [] from hr] at hm; cases hm
  | cons m ms ih =>
    intro p l hr h hm
    obtain ⟨g, l', rfl, h1, _, _, _, h5⟩ := hr
    rcases List.mem_append.1 hm with hm | hm
    · rw [(piece_fields (h1 h hm).1).2.1]; exact ⟨Nat.le_refl _, (h1 h hm).2⟩
    · have := ih h5 h hm; exact ⟨by omega, this.2⟩

/-- A sorted list of fragments starts with those of the first message. -/
theorem sorted_split {l : List Hs} (hs : l.Pairwise Before) {p : Nat} (hge : ∀ x ∈ l, p ≤ x.header.messageSeq) :
    l = l.filter (fun x => x.header.messageSeq == p) ++ l.filter (fun x => !(x.header.messageSeq == p)) := by
  induction l with
  | nil => rfl
  | cons a l ih =>
    rw [List.pairwise_cons] at hs
    by_cases ha : a.header.messageSeq = p
    · rw [List.filter_cons_of_pos (by simpa using ha), List.filter_cons_of_neg (by simpa using ha),
        List.cons_append, ← ih hs.2 (fun x hx => hge x (by simp [hx]))]
    · have hall : ∀ x ∈ a :: l, x.header.messageSeq ≠ p := by
        intro x hx
        rcases List.mem_cons.1 hx with rfl | hx
        · exact ha
        · have h1 := hs.1 x hx
          have h2 := hge a (by simp)
          unfold Before at h1
          omega
      rw [List.filter_eq_nil_iff.2 (by intro x hx; simpa using hall x hx),
        List.filter_eq_self.2 (by intro x hx; simpa using hall x hx)]
      rfl

theorem ready_of {ms : List Msg} : ∀ {p : Nat} {l : List Hs}, l.Pairwise Before →
    (∀ x ∈ l, x.handled = false ∧ Of p ms x) →
    (∀ i m, ms[i]? = some m → Covers m.body (l.filter fun x => x.header.messageSeq == p + i)
      ∧ (l.filter fun x => x.header.messageSeq == p + i).length ≤ 50) →
    Ready p ms l := by
  induction ms with
  | nil =>
    intro p l _ hof _
    cases l with
    | nil => rfl
    | cons a l => obtain ⟨_, i, m, hi, _⟩ := hof a (by simp); simp at hi
  | cons m ms ih =>
    intro p l hs hof hcov
    have hge : ∀ x ∈ l, p ≤ x.header.messageSeq := by
      intro x hx
      obtain ⟨_, i, m, _, px⟩ := hof x hx
      rw [(piece_fields px).2.1]; omega
    refine ⟨_, _, sorted_split hs hge, ?_, ?_, ?_, ?_, ?_⟩
    · intro x hx
      rw [List.mem_filter, beq_iff_eq] at hx
      obtain ⟨hh, i, m', hi, px⟩ := hof x hx.1
      have := (piece_fields px).2.1
      have hi0 : i = 0 := by omega
      subst hi0
      simp only [List.getElem?_cons_zero, Option.some.injEq] at hi
      subst hi
      exact ⟨px, hh⟩
    · refine List.Pairwise.imp_of_mem (R := Before) ?_ (hs.sublist (List.filter_sublist ..))
      intro a b ha hb hab
      rw [List.mem_filter, beq_iff_eq] at ha hb
      unfold Before at hab
      omega
    · exact (hcov 0 m rfl).1
    · exact (hcov 0 m rfl).2
    · refine ih (hs.sublist (List.filter_sublist ..)) ?_ ?_
      · intro x hx
        rw [List.mem_filter] at hx
        obtain ⟨hh, i, m', hi, px⟩ := hof x hx.1
        refine ⟨hh, ?_⟩
        have h1 := (piece_fields px).2.1
        have h2 : ¬ x.header.messageSeq = p := by simpa using hx.2
        cases i with
        | zero => omega
        | succ i =>
          refine ⟨i, m', by simpa using hi, ?_⟩
          rw [show p + 1 + i = p + (i + 1) by omega]
          exact px
      · intro i m' hi
        have := hcov (i + 1) m' (by simpa using hi)
        have he : ∀ x : Hs, (x.header.messageSeq == p + (i + 1)) =
            ((x.header.messageSeq == p + 1 + i) && !(x.header.messageSeq == p)) := by
          intro x
          rw [Bool.eq_iff_iff]
          simp only [beq_iff_eq, Bool.and_eq_true, Bool.not_eq_true', beq_eq_false_iff_ne]
          omega
        simp only [he] at this
        rw [List.filter_filter]
        exact this

/-- Ask for the messages of the given types, one after the other, going past each. -/
def consumeAll (env : Env) : List UInt8 → E (List (Option Body))
  | [] => M.pure []
  | t :: rest => M.bind (nextHandshake env t) fun b => M.bind advancePeerSeq fun _ =>
      M.bind (consumeAll env rest) fun bs => M.pure (b :: bs)

def setHandled (rs : List Rx) : List Rx :=
  rs.map fun r => { r with hss := r.hss.map fun h => { h with handled := true } }

theorem markQueue_zero {st : Bool} {l : List Hs} {rx : List (List Rx)} (h : Queue l rx)
    (hl : ∀ x ∈ l, x.handled = false ∨ st = true) : markQueue st 0 rx = rx := by
  induction h generalizing st with
  | nil => rfl
  | cons hc _ ih =>
    rename_i h l rs rx q
    obtain ⟨r, rfl, hr⟩ := hc
    have hh : (!st && h.handled) = false := by
      rcases hl h (by simp) with e | e <;> simp [e]
    simp only [markQueue, markRecs, hr, E12.markHss, hh]
    have := ih (st := true) (by simp)
    simp only [Bool.false_eq_true, if_false, this]
    rw [← hr]

theorem markQueue_fresh {st : Bool} {l m : List Hs} {ra rb : List (List Rx)} (h : Queue l ra) (h' : Queue m rb)
    (hl : ∀ x ∈ l, x.handled = false) (hm : ∀ x ∈ m, x.handled = false) :
    markQueue st l.length (ra ++ rb) = ra.map setHandled ++ rb := by
  induction h generalizing st with
  | nil => exact markQueue_zero h' (fun x hx => Or.inl (hm x hx))
  | cons hc _ ih =>
    rename_i h l rs rx q
    obtain ⟨r, rfl, hr⟩ := hc
    have hh : h.handled = false := hl h (by simp)
    simp only [List.cons_append, List.length_cons, markQueue, markRecs, hr, E12.markHss, hh, Bool.and_false,
      Bool.false_eq_true, if_false]
    rw [ih (fun x hx => hl x (by simp [hx]))]
    simp [setHandled, hr]

theorem markQueue_skip {d : List Hs} {ro ry : List (List Rx)} (n : Nat) (h : Queue d ro)
    (hd : ∀ x ∈ d, x.handled = true) : markQueue false n (ro ++ ry) = ro ++ markQueue false n ry := by
  induction h with
  | nil => rfl
  | cons hc _ ih =>
    rename_i h l rs rx q
    obtain ⟨r, rfl, hr⟩ := hc
    have hh : h.handled = true := hd h (by simp)
    simp only [List.cons_append, markQueue, markRecs, hr, E12.markHss, hh, Bool.not_false, Bool.and_true, if_true]
    rw [ih (fun x hx => hd x (by simp [hx])), ← hr]

theorem Queue.setHandled {l : List Hs} {rx : List (List Rx)} (h : Queue l rx) :
    Queue (l.map fun x => { x with handled := true }) (rx.map Frag13.setHandled) := by
  induction h with
  | nil => exact .nil
  | cons hc _ ih =>
    obtain ⟨r, rfl, hr⟩ := hc
    refine .cons ⟨_, rfl, ?_⟩ ih
    simp [hr]

theorem Queue.handled {l : List Hs} {rx : List (List Rx)} (h : Queue l rx) (hl : ∀ x ∈ l, x.handled = true) :
    ∀ r ∈ rx.flatten, r.isHandled = true := by
  induction h with
  | nil => intro r hr; cases hr
  | cons hc _ ih =>
    obtain ⟨r, rfl, hr⟩ := hc
    intro x hx
    rw [List.flatten_cons, List.mem_append] at hx
    rcases hx with hx | hx
    · rw [List.mem_singleton.1 hx]
      simp [Rx.isHandled, hr, hl]
    · exact ih (fun y hy => hl y (by simp [hy])) x hx

/-- The bytes a message adds to a transcript: type, length, body. -/
def transcriptBytes (m : Msg) : Bytes := m.t :: (beBytes 3 m.body.length ++ m.body)

theorem consume_flight {env : Env} (ms : List Msg) : ∀ {s : Eng} {d l : List Hs} {ro ry : List (List Rx)},
    Ready s.peerSeq ms l → s.peerSeq + ms.length ≤ 65535 → s.rx = ro ++ ry → Queue d ro →
    (∀ x ∈ d, x.handled = true) → Queue l ry →
    (∀ m ∈ ms, ∃ b, parseBody env false m.t s.suite m.body = some ([], b)) →
    ∃ bs s', consumeAll env (ms.map (·.t)) s = (.ok bs, s')
      ∧ bs.map some = ms.map (fun m => (parseBody env false m.t s.suite m.body).map fun x => some x.2)
      ∧ s'.peerSeq = s.peerSeq + ms.length
      ∧ (s'.log.filterMap fun | .taken q t b => some (q, t, b) | _ => none)
          = ((ms.zipIdx s.peerSeq).map fun x => (x.2, x.1.t, x.1.body)).reverse
            ++ (s.log.filterMap fun | .taken q t b => some (q, t, b) | _ => none)
      ∧ s'.transcript = s.transcript ++ (ms.map transcriptBytes).flatten := by
  induction ms with
  | nil =>
    intro s d l ro ry _ _ _ _ _ _ _
    exact ⟨[], s, rfl, rfl, rfl, by simp, by simp⟩
  | cons m ms ih =>
    intro s d l ro ry hf hlt hrx hqd hd hq hp
    obtain ⟨g, l', rfl, h1, h2, h3, h4, h5⟩ := hf
    obtain ⟨ra, rb, rfl, qa, qb⟩ := hq.split
    obtain ⟨b, hb⟩ := hp m (by simp)
    have hfresh : ∀ x ∈ g, x.handled = false := fun x hx => (h1 x hx).2
    have hh : Holds s.peerSeq g s.rx := by
      refine ⟨ro.flatten, ra.flatten, rb.flatten, [], [], by rw [hrx]; simp, hqd.handled hd, ?_, ?_, by simp,
        by simp, ?_⟩
      · rw [qa.flat.2]; exact h4
      · rw [qa.flat.1]; simp
      · rw [qb.flat.1]
        intro x hx
        have := (h5.ge x hx).1
        omega
    have hlen : (m :: ms).length = ms.length + 1 := rfl
    have e : nextHandshake env m.t s = _ :=
      receiver_reassembles (env := env) (allow := false) (intoTr := true) h1 h2 h3 h4 hh hb
    have hmq : markQueue false g.length s.rx = (ro ++ ra.map setHandled) ++ rb := by
      rw [hrx, markQueue_skip _ hqd hd, markQueue_fresh qa qb hfresh (fun x hx => (h5.ge x hx).2),
        List.append_assoc]
    unfold tookState at e
    rw [hmq, if_pos rfl] at e
    generalize hs1 : ({ s with
      rx := (ro ++ ra.map setHandled) ++ rb
      transcript := s.transcript ++ transcriptOf m.t m.body.length m.body
      log := .taken s.peerSeq m.t m.body :: s.log } : Eng) = s1 at e
    have ea : advancePeerSeq s1 = (.ok (), { s1 with peerSeq := s1.peerSeq + 1, log := .accepted s1.peerSeq :: s1.log }) := by
      unfold advancePeerSeq
      rw [if_neg (by rw [← hs1]; dsimp only; omega)]
    generalize hs2 : ({ s1 with peerSeq := s1.peerSeq + 1, log := .accepted s1.peerSeq :: s1.log } : Eng) = s2 at ea
    obtain ⟨bs, s', e', hbs, hpeer, hlog, htr⟩ := ih (s := s2) (ro := ro ++ ra.map setHandled) (ry := rb)
      (d := d ++ g.map fun x => { x with handled := true }) (l := l')
      (by rw [← hs2, ← hs1]; exact h5) (by rw [← hs2, ← hs1]; dsimp only; omega) (by rw [← hs2, ← hs1])
      (hqd.append qa.setHandled)
      (by intro x hx
          rcases List.mem_append.1 hx with hx | hx
          · exact hd x hx
          · obtain ⟨y, _, rfl⟩ := List.mem_map.1 hx; rfl)
      qb (by rw [← hs2, ← hs1]; exact fun x hx => hp x (by simp [hx]))
    refine ⟨some b :: bs, s', ?_, ?_, ?_, ?_, ?_⟩
    · rw [List.map_cons, consumeAll]
      simp only [M.bind, e, M.andThen, ea, e', M.pure]
    · rw [List.map_cons, hbs, List.map_cons, hb, ← hs2, ← hs1]
      rfl
    · rw [hpeer, ← hs2, ← hs1, hlen]; dsimp only; omega
    · rw [hlog, ← hs2, ← hs1]; simp
    · rw [htr, ← hs2, ← hs1]; simp [transcriptBytes, transcriptOf]

/-- **C11, C12 and C14 (DTLS 1.3).** Pieces of the messages of a flight arrive, one per datagram, in any order, any
number of times each and overlapping arbitrarily, so that together they cover every message. Pieces that start
at the same offset are the same, or one of them is the whole message. Then asking for the messages hands out all of them, in
order, with exactly their bodies, and the transcript grows by exactly these messages.
Missing: datagrams with several fragments (`packing_stalls`), different pieces with the same offset
(`refragmented_stalls`), messages in more than 50 pieces (`too_many_fragments`). -/
theorem flight_consumed_partial {env : Env} (hse : SearchOk env.search) {s : Eng} {ms : List Msg}
    {ds : List (List Rx)} {ps : List (Nat × Nat)} (hempty : s.rx = []) (hrel : s.release = false)
    (hlt : s.peerSeq + ms.length ≤ 65535) (hroom : ps.length < s.cfg.maxRx)
    (hfew : ∀ q, (ps.filter fun k => k.1 == q).length ≤ 50)
    (honly : ∀ rs ∈ ds, ∃ h, Carries h rs ∧ h.handled = false ∧ Of s.peerSeq ms h ∧ pos h ∈ ps)
    (hcompat : ∀ x y : Hs, (∃ rs ∈ ds, Carries x rs) → (∃ rs ∈ ds, Carries y rs) → pos x = pos y →
        x = y ∨ Whole x ∨ Whole y)
    (hall : ∀ i m, ms[i]? = some m → ∃ hs, Covers m.body hs ∧
      ∀ x ∈ hs, x.header.messageSeq = s.peerSeq + i ∧ ∃ rs ∈ ds, Carries x rs)
    (hp : ∀ m ∈ ms, ∃ b, parseBody env false m.t s.suite m.body = some ([], b)) :
    ∃ s1 bs s', arrivals env ds s = (.ok (), s1) ∧ consumeAll env (ms.map (·.t)) s1 = (.ok bs, s')
      ∧ bs.map some = ms.map (fun m => (parseBody env false m.t s.suite m.body).map fun x => some x.2)
      ∧ (s'.log.filterMap fun | .taken q t b => some (q, t, b) | _ => none)
          = ((ms.zipIdx s.peerSeq).map fun x => (x.2, x.1.t, x.1.body)).reverse
            ++ (s.log.filterMap fun | .taken q t b => some (q, t, b) | _ => none)
      ∧ s'.transcript = s.transcript ++ (ms.map transcriptBytes).flatten := by
  obtain ⟨l, rx, t, rc, e, hq, hl, hm, hk⟩ := arrivals_queue (env := env) hse (p := s.peerSeq) (ms := ms) (ps := ps) ds
    (s := s) (l := []) (by rw [hempty]; exact .nil) .nil hrel hroom rfl (by simp) honly
    (by rintro x y (h | h) hy he
        · cases h
        · exact hcompat x y h hy he)
  have hready : Ready s.peerSeq ms l := by
    refine ready_of hl (fun x hx => ⟨(hm x hx).1, (hm x hx).2.1⟩) ?_
    intro i m hi
    obtain ⟨hs, ⟨hne, hcov⟩, hhs⟩ := hall i m hi
    have hkeep : ∀ x ∈ hs, ∃ y ∈ l.filter (fun x => x.header.messageSeq == s.peerSeq + i),
        y.header.fragOff = x.header.fragOff ∧ x.body.length ≤ y.body.length := by
      intro x hx
      obtain ⟨h1, h2⟩ := hhs x hx
      obtain ⟨y, hy, he, hle⟩ := hk x (Or.inr h2)
      refine ⟨y, ?_, congrArg Prod.snd he, hle⟩
      rw [List.mem_filter, beq_iff_eq]
      exact ⟨hy, (congrArg Prod.fst he).trans h1⟩
    refine ⟨⟨?_, ?_⟩, ?_⟩
    · cases hs with
      | nil => exact absurd rfl hne
      | cons x hs =>
        obtain ⟨y, hy, _⟩ := hkeep x (by simp)
        exact List.ne_nil_of_mem hy
    · intro j hj
      obtain ⟨x, hx, h1, h2⟩ := hcov j hj
      obtain ⟨y, hy, h3, h4⟩ := hkeep x hx
      exact ⟨y, hy, by omega, by omega⟩
    · have hn := sorted_nodup (hl.sublist (List.filter_sublist (p := fun x => x.header.messageSeq == s.peerSeq + i)))
      have := nodup_length hn (m := ps.filter fun k => k.1 == s.peerSeq + i) (by
        intro k hk
        obtain ⟨x, hx, rfl⟩ := List.mem_map.1 hk
        rw [List.mem_filter] at hx ⊢
        exact ⟨(hm x hx.1).2.2, hx.2⟩)
      rw [List.length_map] at this
      exact Nat.le_trans this (hfew _)
  obtain ⟨bs, s', e', h1, _, h4, h5⟩ := consume_flight (env := env) ms
    (s := { s with rx := rx, tick := t, received := rc })
    (d := []) (ro := []) (ry := rx) hready hlt rfl .nil (by simp) hq hp
  exact ⟨_, bs, s', e, e', h1, h4, h5⟩

/-! ## The sender -/

/-- The plaintexts of the records put on the transmit queue, newest first. -/
def plains (l : List Ev) : List Bytes :=
  l.filterMap fun | .queued _ _ _ _ p => some p | _ => none

/-- A handshake record creation that succeeds saves the fragment and logs it. -/
theorem createHsRecord_ok {env : Env} {ep : Nat} {f : Bytes} {s s' : Eng}
    (h : createHsRecord env ep f s = (.ok (), s')) :
    (s'.saved.map fun e => (e.epoch, e.fragment)) = (s.saved.map fun e => (e.epoch, e.fragment)) ++ [(ep, f)]
      ∧ plains s'.log = f :: plains s.log
      ∧ s'.transcript = s.transcript ∧ s'.cfg = s.cfg ∧ s'.saved.length ≤ 12 := by
  unfold createHsRecord at h
  split at h
  · rename_i hep
    subst hep
    unfold createPlain saveEntry at h
    simp only [if_true] at h
    split at h
    · cases h
    rename_i s1 hs1
    split at hs1
    · cases hs1
    rename_i hlen
    cases hs1
    dsimp only at h
    split at h
    · cases h
    split at h
    · cases h
    cases h
    simp only [emitPlain, pushWire]
    split <;> refine ⟨by simp, by simp [plains], rfl, rfl, ?_⟩ <;> simp <;> omega
  · unfold createCipher saveEntry at h
    simp only [if_true] at h
    split at h
    · cases h
    rename_i s1 hs1
    split at hs1
    · cases hs1
    rename_i hlen
    cases hs1
    unfold sealCipher at h
    split at h
    · split at h
      · cases h
      dsimp only at h
      split at h
      · cases h
      unfold queueCipher at h
      dsimp only at h
      split at h
      · cases h
      split at h
      · cases h
      cases h
      simp only [emitCipher, pushWire, countSent]
      repeat' split
      all_goals refine ⟨by simp, by simp [plains], rfl, rfl, ?_⟩ <;> simp <;> omega
    · cases h

theorem chunk_le (s : Eng) (p total off : Nat) : chunkLen s p total off ≤ total - off := by
  unfold chunkLen
  dsimp only
  split
  · omega
  · exact Nat.min_le_left ..

theorem chunk_pos (s : Eng) (p total off : Nat) (hm : p < s.cfg.mtu) (ho : off < total) :
    0 < chunkLen s p total off := by
  unfold chunkLen
  dsimp only
  rw [if_neg (by omega)]
  split <;> omega

theorem loop_cut {env : Env} {t : UInt8} {q ep : Nat} {body : Bytes} {p : Nat} :
    ∀ (fuel off : Nat) {s : Eng} (s' : Eng), off ≤ body.length → (body = [] → off = 0) →
      p < s.cfg.mtu →
      (off < body.length ∨ body = []) →
      fragmentLoop env t q ep p body fuel off s = (.ok (), s') →
      ∃ hs : List Hs, hs ≠ [] ∧ Cut t q body off hs ∧ (body ≠ [] → ∀ h ∈ hs, h.body ≠ [])
        ∧ (s'.saved.map fun e => (e.epoch, e.fragment)) = (s.saved.map fun e => (e.epoch, e.fragment))
            ++ hs.map (fun h => (ep, serializeHs h.header h.body))
        ∧ plains s'.log = (hs.map fun h => serializeHs h.header h.body).reverse ++ plains s.log
        ∧ s'.transcript = s.transcript
        ∧ hs.Pairwise Before ∧ (∀ h ∈ hs, off ≤ h.header.fragOff) ∧ s'.saved.length ≤ 12 := by
  intro fuel
  induction fuel with
  | zero => intro off s s' _ _ _ _ h; cases h
  | succ n ih =>
    intro off s s' hle he hm hgo h
    unfold fragmentLoop at h
    rw [if_pos (by rcases hgo with h1 | h1
                   · exact Or.inl h1
                   · exact Or.inr ⟨by rw [h1]; rfl, he h1⟩)] at h
    simp only [M.bind, M.get, M.andThen] at h
    have hc := chunk_le s p body.length off
    have hp := chunk_pos s p body.length off hm
    generalize chunkLen s p body.length off = c at h hc hp
    cases hr : createHsRecord env ep (fragmentBytes t q body off c) s with
    | mk r s1 =>
      simp only [hr] at h
      cases r with
      | fail e => cases h
      | ok u =>
        obtain ⟨hs1, hl1, ht1, hc1, hn1⟩ := createHsRecord_ok hr
        let x : Hs := ⟨⟨t, body.length, q, off, c⟩, (body.drop off).take c, false⟩
        have hxl : x.body.length = c := by simp [x]; omega
        have hx : x.header = ⟨t, body.length, q, off, x.body.length⟩ ∧ x.body = (body.drop off).take x.body.length
                 ∧ x.handled = false := by rw [hxl]; exact ⟨rfl, rfl, rfl⟩
        have hent : serializeHs x.header x.body = fragmentBytes t q body off c := rfl
        by_cases hb : body.length = 0
        · rw [if_pos hb] at h
          cases h
          refine ⟨[x], by simp, ⟨hx.1, hx.2.1, hx.2.2, ?_⟩, ?_, ?_, ?_, ht1, by simp, by simp [x], hn1⟩
          · show off + x.body.length = body.length; omega
          · intro hne; exact absurd (List.length_eq_zero_iff.1 hb) hne
          · rw [hs1, List.map_singleton, hent]
          · rw [hl1]; rfl
        · rw [if_neg hb] at h
          have hlt : off < body.length := by
            rcases hgo with h1 | h1
            · exact h1
            · rw [h1] at hb; simp at hb
          have hxne : x.body ≠ [] := by
            intro hx0; have := hp hlt; rw [hx0] at hxl; simp at hxl; omega
          by_cases hlast : off + c = body.length
          · have hend : fragmentLoop env t q ep p body n (off + c) s1 = (.ok (), s1) ∨
                fragmentLoop env t q ep p body n (off + c) s1 = (.fail .diverge, s1) := by
              cases n with
              | zero => exact Or.inr rfl
              | succ n =>
                left
                unfold fragmentLoop
                rw [if_neg (by omega)]
                rfl
            rcases hend with hend | hend
            · simp only [hend] at h
              cases h
              refine ⟨[x], by simp, ⟨hx.1, hx.2.1, hx.2.2, ?_⟩, ?_, ?_, ?_, ht1, by simp, by simp [x], hn1⟩
              · show off + x.body.length = body.length; omega
              · intro _ y hy; rw [List.mem_singleton.1 hy]; exact hxne
              · rw [hs1, List.map_singleton, hent]
              · rw [hl1]; rfl
            · simp only [hend] at h; cases h
          · have hcp := hp hlt
            obtain ⟨hs, h1, h2, h3, h4, h5, h6, h7, h8, h9⟩ := ih (off + c) s' (by omega)
              (by intro hb0; rw [hb0] at hb; simp at hb) (by rw [hc1]; exact hm) (Or.inl (by omega)) h
            refine ⟨x :: hs, by simp, ⟨hx.1, hx.2.1, hx.2.2, by rw [hxl]; exact h2⟩, ?_, ?_, ?_, ?_, ?_, ?_, h9⟩
            · intro hne y hy
              rcases List.mem_cons.1 hy with rfl | hy
              · exact hxne
              · exact h3 hne y hy
            · rw [h4, hs1, List.map_cons, hent]; simp
            · rw [h5, hl1]; simp [x, fragmentBytes]
            · rw [h6, ht1]
            · refine List.pairwise_cons.2 ⟨?_, h7⟩
              intro y hy
              obtain ⟨_, m2, _⟩ := h2.mem y hy
              have := h8 y hy
              exact Or.inr ⟨m2.symm, by show off < _; omega⟩
            · intro y hy
              rcases List.mem_cons.1 hy with rfl | hy
              · exact Nat.le_refl _
              · have := h8 y hy; omega

/-- **C10 (DTLS 1.3), sender.** Whenever creating a handshake message succeeds, with any MTU of at least 64
and any fill level of the transmit queue, the records queued (and saved for retransmission) carry, in order,
fragments that cut the message into consecutive non-empty pieces, at most 12, each of which is parsed back from its
record, and the transcript grows by the message as one unfragmented piece. -/
theorem sender_fragments {env : Env} {t : UInt8} {body : Bytes} {s s' : Eng}
    (hmtu : 64 ≤ s.cfg.mtu) (htag : ∀ n, s.tag env = some n → n ≤ 16) (hb : body.length < 2 ^ 24)
    (h : createHandshake env t body s = (.ok (), s')) :
    ∃ hs : List Hs, hs ≠ [] ∧ Cut t s.nextSeq body 0 hs ∧ (body ≠ [] → ∀ h ∈ hs, h.body ≠ [])
      ∧ hs.Pairwise Before ∧ s.saved.length + hs.length ≤ 12
      ∧ (s'.saved.map fun e => (e.epoch, e.fragment)) = (s.saved.map fun e => (e.epoch, e.fragment))
            ++ hs.map (fun h => (msgEpoch t, serializeHs h.header h.body))
      ∧ plains s'.log = (hs.map fun h => serializeHs h.header h.body).reverse ++ plains s.log
      ∧ (∀ h ∈ hs, parseHandshakes 8 (serializeHs h.header h.body) = [h])
      ∧ s'.transcript = s.transcript ++ transcriptBytes ⟨t, body⟩ := by
  unfold createHandshake at h
  dsimp only at h
  split at h
  · cases h
  rename_i hq
  split at h
  · cases h
  rename_i tag htg
  have hm' : fixedOverhead (msgEpoch t) tag < s.cfg.mtu := by
    unfold fixedOverhead
    split at htg
    · rw [if_pos (by assumption)]; omega
    · rw [if_neg (by assumption)]
      have := htag tag htg
      omega
  obtain ⟨hs, h1, h2, h3, h4, h5, h6, h8, _, h9⟩ := loop_cut (s := { s with
      transcript := s.transcript ++ transcriptOf t body.length body, nextSeq := s.nextSeq + 1 })
    (body.length + 14) 0 s' (Nat.zero_le _) (fun _ => rfl) hm'
    (by rcases Nat.eq_zero_or_pos body.length with h0 | h0
        · exact Or.inr (List.length_eq_zero_iff.1 h0)
        · exact Or.inl h0) h
  refine ⟨hs, h1, h2, h3, h8, ?_, h4, h5, ?_, h6⟩
  · have := congrArg List.length h4
    simp only [List.length_map, List.length_append] at this
    omega
  intro x hx
  obtain ⟨m1, m2, m3, m4, m5, m6⟩ := h2.mem x hx
  have := Props.Wire.handshakes_roundtrip 8 [(x.header, x.body)] (by simp) (by
    intro p hp
    rw [List.mem_singleton.1 hp]
    refine ⟨⟨?_, ?_, ?_, ?_⟩, m5.symm⟩ <;> dsimp only <;> omega)
  simp only [List.map_singleton, List.flatten_singleton] at this
  rw [this]
  congr 1
  cases x
  simp_all

/-- A cut consists of covering pieces in order. -/
theorem cut_pieces {t : UInt8} {q : Nat} {body : Bytes} :
    ∀ {hs : List Hs} {off : Nat}, Cut t q body off hs →
      (∀ x ∈ hs, Piece t q body x ∧ x.handled = false)
      ∧ (∀ i, off ≤ i → i < body.length →
          ∃ h ∈ hs, h.header.fragOff ≤ i ∧ i < h.header.fragOff + h.body.length) := by
  intro hs
  induction hs with
  | nil => intro off h; exact ⟨by simp, fun i h1 h2 => by rw [show off = body.length from h] at h1; omega⟩
  | cons x rest ih =>
    intro off hc
    have hx := hc.mem x (by simp)
    obtain ⟨h1, h2, h3, h4⟩ := hc
    have hoff : x.header.fragOff = off := by rw [h1]
    obtain ⟨i1, i2⟩ := ih h4
    refine ⟨?_, ?_⟩
    · intro y hy
      rcases List.mem_cons.1 hy with rfl | hy
      · exact ⟨⟨by rw [hoff]; exact h1, by rw [hoff]; exact h2, hx.2.2.2.2.2⟩, h3⟩
      · exact i1 y hy
    · intro i hi1 hi2
      by_cases hlt : i < off + x.body.length
      · exact ⟨x, by simp, by omega, by omega⟩
      · obtain ⟨y, hy, h5⟩ := i2 i (by omega) hi2
        exact ⟨y, by simp [hy], h5⟩

/-- **C10 (DTLS 1.3).** Whenever creating a handshake message succeeds, with any MTU of at least 64 and any fill
level, the fragments on the wire and those saved for retransmission are the same and cut the message, and every
receiver expecting its number that holds them in at most 50 records takes exactly the message: same type, same
body, and both transcripts grow by the same bytes.
Missing: messages whose creation fails, see `big_message_panics`. -/
theorem reassembled_exactly_partial {env env' : Env} {t : UInt8} {body : Bytes} {s s' r : Eng} {b : Body}
    (hmtu : 64 ≤ s.cfg.mtu) (htag : ∀ n, s.tag env = some n → n ≤ 16) (hb : body.length < 2 ^ 24)
    (h : createHandshake env t body s = (.ok (), s')) :
    ∃ hs : List Hs,
      (∃ new, plains s'.log = new ++ plains s.log ∧ new.reverse.flatMap (parseHandshakes 8) = hs) ∧
      (s'.saved.drop s.saved.length).flatMap (fun e => parseHandshakes 8 e.fragment) = hs ∧
      (∃ bytes, s'.transcript = s.transcript ++ bytes ∧
        (r.peerSeq = s.nextSeq → Holds r.peerSeq hs r.rx →
          parseBody env' false t r.suite body = some ([], b) →
          ∃ rx', nextHandshake env' t r = (.ok (some b), { r with
            rx := rx'
            transcript := r.transcript ++ bytes
            log := .taken r.peerSeq t body :: r.log }))) := by
  obtain ⟨hs, h1, h2, _, h3, hcount, h4, h5, h6, h7⟩ := sender_fragments hmtu htag hb h
  have hmap : ∀ l : List Hs, (∀ x ∈ l, parseHandshakes 8 (serializeHs x.header x.body) = [x]) →
      l.flatMap (fun x => parseHandshakes 8 (serializeHs x.header x.body)) = l := by
    intro l hl
    induction l with
    | nil => rfl
    | cons a l ih => rw [List.flatMap_cons, hl a (by simp), ih (fun x hx => hl x (by simp [hx]))]; rfl
  refine ⟨hs, ⟨_, h5, ?_⟩, ?_, _, h7, ?_⟩
  · rw [List.reverse_reverse, List.flatMap_map]; exact hmap hs h6
  · have e1 : (s'.saved.drop s.saved.length).map (fun e => (e.epoch, e.fragment))
        = hs.map (fun h => (msgEpoch t, serializeHs h.header h.body)) := by
      rw [List.map_drop, h4, List.drop_left' (by simp)]
    have e2 := congrArg (fun l => l.flatMap (fun x : Nat × Bytes => parseHandshakes 8 x.2)) e1
    simp only [List.flatMap_map] at e2
    rw [e2]
    exact hmap hs h6
  · intro hseq hh hp
    rw [← hseq] at h2
    obtain ⟨c1, c2⟩ := cut_pieces h2
    refine ⟨markQueue false hs.length r.rx, ?_⟩
    refine (receiver_reassembles (intoTr := true) c1 ?_ ⟨h1, fun i hi => c2 i (Nat.zero_le _) hi⟩ (by omega)
      hh hp).trans ?_
    · refine List.Pairwise.imp_of_mem (R := Before) ?_ h3
      intro a b ha hb hab
      have e1 := (piece_fields (c1 a ha).1).2.1
      have e2 := (piece_fields (c1 b hb).1).2.1
      unfold Before at hab
      omega
    · rfl

/-! ## Progress (C49) -/

theorem createHsRecord_ends {env : Env} {ep : Nat} {f : Bytes} {s : Eng} :
    (createHsRecord env ep f s).1 ≠ .fail .diverge := by
  intro h
  unfold createHsRecord at h
  split at h
  · unfold createPlain at h
    split at h
    · cases h
    dsimp only at h
    split at h
    · cases h
    split at h <;> cases h
  · unfold createCipher at h
    split at h
    · cases h
    unfold sealCipher at h
    split at h
    · split at h
      · cases h
      dsimp only at h
      split at h
      · cases h
      unfold queueCipher at h
      dsimp only at h
      split at h
      · cases h
      split at h <;> cases h
    · cases h

theorem loop_ends {env : Env} {t : UInt8} {q ep : Nat} {body : Bytes} {p : Nat} :
    ∀ (fuel off : Nat) {s : Eng}, p < s.cfg.mtu → body.length - off < fuel →
      (fragmentLoop env t q ep p body fuel off s).1 ≠ .fail .diverge := by
  intro fuel
  induction fuel with
  | zero => intro off s _ h; omega
  | succ n ih =>
    intro off s hm hf
    unfold fragmentLoop
    split
    · rename_i hgo
      simp only [M.bind, M.get, M.andThen]
      have hp := chunk_pos s p body.length off hm
      generalize chunkLen s p body.length off = c at hp
      cases hr : createHsRecord env ep (fragmentBytes t q body off c) s with
      | mk r s1 =>
        cases r with
        | fail e =>
          have := createHsRecord_ends (env := env) (ep := ep) (f := fragmentBytes t q body off c) (s := s)
          rw [hr] at this
          exact this
        | ok u =>
          dsimp only
          obtain ⟨_, _, _, hc1, _⟩ := createHsRecord_ok hr
          split
          · simp [M.pure]
          · refine ih _ (by rw [hc1]; exact hm) ?_
            have := hp (by omega)
            omega
    · simp [M.pure]

theorem createRecord12_ends {env : E12.Env} {ct : UInt8} {ep : Nat} {save force : Bool} {f : Bytes} {s : E12.Eng} :
    (E12.createRecord env ct ep save force f s).1 ≠ .fail .diverge := by
  intro h
  unfold E12.createRecord at h
  split at h
  · cases h
  dsimp only at h
  split at h
  · cases h
  split at h
  · unfold E12.sealRecord at h
    split at h
    · cases h
    split at h
    · cases h
    dsimp only at h
    repeat' split at h
    all_goals cases h
  · cases h

theorem loop12_ends {env : E12.Env} {t : UInt8} {q : Nat} {body : Bytes} {p : Nat} :
    ∀ (fuel off : Nat) {s : E12.Eng}, 25 + p < s.cfg.mtu → body.length - off < fuel →
      (E12.fragmentLoop env t q body p fuel off s).1 ≠ .fail .diverge := by
  intro fuel
  induction fuel with
  | zero => intro off s _ h; omega
  | succ n ih =>
    intro off s hm hf
    unfold E12.fragmentLoop
    dsimp only
    split
    · rename_i hgo
      have hp := Frag12.chunk_pos s p body.length off hm
      generalize E12.chunkLen s p body.length off = c at hp
      cases hr : E12.createRecord env ctHandshake (E12.msgEpoch t) true false (E12.hsFragment t q body off c) s with
      | mk r s1 =>
        simp only [M.bind, M.andThen, hr]
        cases r with
        | fail e =>
          have := createRecord12_ends (env := env) (ct := ctHandshake) (ep := E12.msgEpoch t) (save := true)
            (force := false) (f := E12.hsFragment t q body off c) (s := s)
          rw [hr] at this
          exact this
        | ok u =>
          dsimp only
          obtain ⟨_, _, _, hc1, _⟩ := Frag12.createRecord_ok hr
          split
          · simp [M.pure]
          · refine ih _ (by rw [hc1]; exact hm) ?_
            have := hp (by omega)
            omega
    · simp

/-- **C49, progress.** With every configuration that can be built, fragmenting any handshake message in any
state comes to an end, in both versions, for suites that add at most 24 (DTLS 1.2) or 16 (DTLS 1.3) bytes to a
record, which all those in the repository do. -/
theorem built_makes_progress {b : Config.Builder} {p : Config.Provider} {c : Config.Config}
    (h : Config.build b p = .ok c) :
    (∀ (env : E12.Env) (s : E12.Eng) (t : UInt8) (body : Bytes), s.cfg.mtu = c.mtu →
      s.overhead (E12.msgEpoch t) ≤ 24 →
      (E12.createHandshake env t body s).1 ≠ .fail .diverge) ∧
    (∀ (env : Env) (s : Eng) (t : UInt8) (body : Bytes), s.cfg.mtu = c.mtu →
      (∀ n, s.tag env = some n → n ≤ 16) →
      (createHandshake env t body s).1 ≠ .fail .diverge) := by
  obtain ⟨_, hu, rfl⟩ := (Props.Config.build_iff_usable b p c).1 h
  have hm := hu.mtu
  refine ⟨?_, ?_⟩
  · intro env s t body e ho
    unfold E12.createHandshake
    dsimp only
    split
    · simp
    split
    · simp
    · exact loop12_ends _ _ (by dsimp only; omega) (by omega)
  · intro env s t body e ho
    unfold createHandshake
    dsimp only
    split
    · simp
    split
    · simp
    · rename_i tag htg
      refine loop_ends _ _ ?_ (by omega)
      dsimp only
      unfold fixedOverhead
      split at htg
      · rw [if_pos (by assumption)]; omega
      · rw [if_neg (by assumption)]
        have := ho tag htg
        omega

end Verif.Props.Frag13

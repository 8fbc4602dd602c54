import Verif.Lemmas.Rx13
import Verif.Lemmas.Rx12
/-!
# Records in the DTLS 1.3 receive queue
-/
namespace Verif.E13
open Verif Wire Window Timer Aead M
open Verif.E12 (insertAt Call markHss markHss_all markHss_nil)

/-- The same record, possibly marked as handled. -/
structure Mark (r r' : Rx) : Prop where
  buffer : r'.buffer = r.buffer
  rcd : r'.rcd = r.rcd
  opened : r'.opened = r.opened
  hss : r'.hss.map (fun h => (h.header, h.body)) = r.hss.map (fun h => (h.header, h.body))
  handled : r.isHandled = true → r'.isHandled = true

theorem Mark.refl (r : Rx) : Mark r r := ⟨rfl, rfl, rfl, rfl, id⟩

/-- The second list comes from the first by dropping and marking records. -/
inductive Fewer : List Rx → List Rx → Prop
  | nil : Fewer [] []
  | drop (r : Rx) {l l' : List Rx} : Fewer l l' → Fewer (r :: l) l'
  | keep {r r' : Rx} {l l' : List Rx} : Mark r r' → Fewer l l' → Fewer (r :: l) (r' :: l')

theorem Fewer.of_sublist {l l' : List Rx} (h : l'.Sublist l) : Fewer l l' := by
  induction h with
  | slnil => exact .nil
  | cons a _ ih => exact .drop a ih
  | cons_cons a _ ih => exact .keep (.refl a) ih

theorem Fewer.refl (l : List Rx) : Fewer l l := .of_sublist (List.Sublist.refl l)

theorem Fewer.append {a a' b b' : List Rx} (h : Fewer a a') (g : Fewer b b') :
    Fewer (a ++ b) (a' ++ b') := by
  induction h with
  | nil => exact g
  | drop r _ ih => exact .drop r ih
  | keep m _ ih => exact .keep m ih

theorem Fewer.map {f : Rx → Rx} (h : ∀ r, Mark r (f r)) (l : List Rx) : Fewer l (l.map f) := by
  induction l with
  | nil => exact .nil
  | cons r l ih => exact .keep (h r) ih

theorem Fewer.mem {l l' : List Rx} (h : Fewer l l') {r' : Rx} (hr : r' ∈ l') : ∃ r ∈ l, Mark r r' := by
  induction h with
  | nil => simp at hr
  | drop r _ ih =>
    obtain ⟨x, hx, hm⟩ := ih hr
    exact ⟨x, by simp [hx], hm⟩
  | @keep a a' _ _ m _ ih =>
    rcases List.mem_cons.mp hr with rfl | hr
    · exact ⟨_, by simp, m⟩
    · obtain ⟨x, hx, hm⟩ := ih hr
      exact ⟨x, by simp [hx], hm⟩

/-- An opened application data record still to be delivered. -/
def live (r : Rx) : Bool := r.opened && !r.isHandled && decide (r.rcd.ctype = ctAppData)

/-- Epochs and numbers of the records still to be delivered. -/
def liveSeqs (l : List Rx) : List (Nat × Nat) := (l.filter live).map fun r => (r.rcd.epoch, r.rcd.seq)

theorem liveSeqs_append (a b : List Rx) : liveSeqs (a ++ b) = liveSeqs a ++ liveSeqs b := by
  simp [liveSeqs]

theorem liveSeqs_perm {a b : List Rx} (h : a.Perm b) : (liveSeqs a).Perm (liveSeqs b) :=
  (h.filter _).map _

theorem Fewer.live {l l' : List Rx} (h : Fewer l l') : (liveSeqs l').Sublist (liveSeqs l) := by
  induction h with
  | nil => exact List.Sublist.refl _
  | drop r _ ih =>
    unfold liveSeqs at *
    rw [List.filter_cons]
    split
    · exact ih.cons _
    · exact ih
  | @keep r r' l l' m _ ih =>
    unfold liveSeqs at *
    rw [List.filter_cons, List.filter_cons]
    split
    · rename_i h1
      have h1' : E13.live r = true := by
        simp only [E13.live, m.rcd, m.opened, Bool.and_eq_true, Bool.not_eq_true'] at h1 ⊢
        refine ⟨⟨h1.1.1, ?_⟩, h1.2⟩
        cases hh : r.isHandled
        · rfl
        · rw [m.handled hh] at h1; simp at h1
      rw [if_pos h1', List.map_cons, List.map_cons, m.rcd]
      exact ih.cons_cons _
    · split
      · exact ih.cons _
      · exact ih

/-! ### Marking functions -/

theorem markHss_map (st : Bool) (n : Nat) (l : List Hs) :
    (markHss st n l).1.map (fun h => (h.header, h.body)) = l.map (fun h => (h.header, h.body)) := by
  induction l generalizing st n with
  | nil => rfl
  | cons h l ih =>
    unfold markHss
    split
    · simp [ih]
    · split
      · rfl
      · simp [ih]

theorem markHss_mark (r : Rx) (st : Bool) (n : Nat) : Mark r { r with hss := (markHss st n r.hss).1 } := by
  refine ⟨rfl, rfl, rfl, markHss_map .., ?_⟩
  unfold Rx.isHandled
  intro h
  by_cases he : r.hss = []
  · simp [he, markHss] at h ⊢
    exact h
  · have : (markHss st n r.hss).1 ≠ [] := fun hc => he ((markHss_nil ..).mp hc)
    simp only [List.isEmpty_iff, he, this, if_false] at h ⊢
    exact markHss_all _ _ _ h

theorem markRecs_fewer (st : Bool) (n : Nat) (l : List Rx) : Fewer l (markRecs st n l).1 := by
  induction l generalizing st n with
  | nil => exact .nil
  | cons r l ih => exact .keep (markHss_mark r st n) (ih _ _)

theorem markQueue_fewer (st : Bool) (n : Nat) (l : List (List Rx)) :
    Fewer l.flatten (markQueue st n l).flatten := by
  induction l generalizing st n with
  | nil => exact .nil
  | cons i l ih => exact (markRecs_fewer st n i).append (ih _ _)

theorem markQueue_length (st : Bool) (n : Nat) (l : List (List Rx)) :
    (markQueue st n l).length = l.length := by
  induction l generalizing st n with
  | nil => rfl
  | cons i l ih => simp [markQueue, ih]

theorem mark_handled (r : Rx) : Mark r { r with handled := true } := by
  refine ⟨rfl, rfl, rfl, rfl, ?_⟩
  unfold Rx.isHandled
  split
  · exact fun _ => rfl
  · exact id

/-- What `markAppRec` marks. -/
theorem markAppRec_split (l : List Rx) :
    ((markAppRec l).2 = false ∧ (markAppRec l).1 = l ∧
      (∀ x ∈ l, x.rcd.ctype = ctAppData → x.isHandled = true)) ∨
    ((markAppRec l).2 = true ∧ ∃ a r b, l = a ++ r :: b ∧
      (markAppRec l).1 = a ++ { r with handled := true } :: b ∧ r.rcd.ctype = ctAppData ∧
      r.isHandled = false ∧ ∀ x ∈ a, x.rcd.ctype = ctAppData → x.isHandled = true) := by
  induction l with
  | nil => exact .inl ⟨rfl, rfl, by simp⟩
  | cons r l ih =>
    unfold markAppRec
    split
    · rename_i h
      exact .inr ⟨rfl, [], r, l, rfl, rfl, h.1, h.2, by simp⟩
    · rename_i h
      have hr : r.rcd.ctype = ctAppData → r.isHandled = true := fun hc => by
        cases hh : r.isHandled
        · exact absurd ⟨hc, hh⟩ h
        · rfl
      rcases ih with ⟨h1, h2, h3⟩ | ⟨h1, a, x, b, h2, h3, h4, h5, h6⟩
      · refine .inl ⟨h1, by simp [h2], ?_⟩
        intro x hx
        rcases List.mem_cons.mp hx with rfl | hx
        · exact hr
        · exact h3 x hx
      · refine .inr ⟨h1, r :: a, x, b, by simp [h2], by simp [h3], h4, h5, ?_⟩
        intro x hx
        rcases List.mem_cons.mp hx with rfl | hx
        · exact hr
        · exact h6 x hx

/-- What `markApp` marks. -/
theorem markApp_split (l : List (List Rx)) :
    ((markApp l).flatten = l.flatten ∧ (∀ x ∈ l.flatten, x.rcd.ctype = ctAppData → x.isHandled = true)) ∨
    (∃ a r b, l.flatten = a ++ r :: b ∧
      (markApp l).flatten = a ++ { r with handled := true } :: b ∧ r.rcd.ctype = ctAppData ∧
      r.isHandled = false ∧ ∀ x ∈ a, x.rcd.ctype = ctAppData → x.isHandled = true) := by
  induction l with
  | nil => exact .inl ⟨rfl, by simp⟩
  | cons i l ih =>
    unfold markApp
    dsimp only
    rcases markAppRec_split i with ⟨h1, h2, h3⟩ | ⟨h1, a, x, b, h2, h3, h4, h5, h6⟩
    · rw [h1, h2]
      rcases ih with ⟨g2, g3⟩ | ⟨a, x, b, g2, g3, g4, g5, g6⟩
      · refine .inl ⟨by simp [g2], ?_⟩
        intro x hx
        rw [List.flatten_cons] at hx
        rcases List.mem_append.mp hx with hx | hx
        · exact h3 x hx
        · exact g3 x hx
      · refine .inr ⟨i ++ a, x, b, by simp [g2], by simp [g3], g4, g5, ?_⟩
        intro y hy
        rcases List.mem_append.mp hy with hy | hy
        · exact h3 y hy
        · exact g6 y hy
    · rw [h1, if_pos rfl, h3, h2]
      exact .inr ⟨a, x, b ++ l.flatten, by simp, by simp, h4, h5, h6⟩

theorem markApp_length (l : List (List Rx)) : (markApp l).length = l.length := by
  induction l with
  | nil => rfl
  | cons i l ih =>
    unfold markApp
    dsimp only
    split <;> simp [ih]

theorem nextApp_split {s : Eng} {r : Rx} (h : nextApp s = some r) :
    ∃ a b, s.rx.flatten = a ++ r :: b ∧ (markApp s.rx).flatten = a ++ { r with handled := true } :: b ∧
      r.rcd.ctype = ctAppData ∧ r.isHandled = false ∧
      ∀ x ∈ a, x.rcd.ctype = ctAppData → x.isHandled = true := by
  have key : ∀ a : List Rx, (∀ x ∈ a, x.rcd.ctype = ctAppData → x.isHandled = true) → ∀ b,
      (((a ++ b).filter fun r => decide (r.rcd.ctype = ctAppData)).dropWhile (·.isHandled)) =
      ((b.filter fun r => decide (r.rcd.ctype = ctAppData)).dropWhile (·.isHandled)) := by
    intro a
    induction a with
    | nil => intro _ b; rfl
    | cons x a ih =>
      intro hx b
      rw [List.cons_append, List.filter_cons]
      have := ih (fun y hy => hx y (by simp [hy])) b
      split
      · rename_i hc
        rw [List.dropWhile_cons, if_pos (hx x (by simp) (by simpa using hc)), this]
      · exact this
  unfold nextApp at h
  rcases markApp_split s.rx with ⟨_, g⟩ | ⟨a, x, b, h2, h3, h4, h5, h6⟩
  · have := key _ g []
    rw [List.append_nil] at this
    rw [this] at h
    simp at h
  · rw [h2, key a h6] at h
    simp only [List.filter_cons, h4, decide_true, if_true, List.dropWhile_cons, h5,
      Bool.false_eq_true, if_false, List.head?_cons, Option.some.injEq] at h
    subst h
    exact ⟨a, b, h2, h3, h4, h5, h6⟩

/-! ## Steps, coarsely -/

/-- The records of the datagram being processed. -/
def Hand.recs : Hand → List Rx
  | .idle => []
  | .busy _ l => l

/-- Every record the engine holds. -/
def recs (s : Eng) (h : Hand) : List Rx := s.rx.flatten ++ h.recs

/-- Up to order, the second list comes from the first by dropping and marking records. -/
def Less (a b : List Rx) : Prop := ∃ l, l.Perm a ∧ Fewer l b

theorem Less.refl (a : List Rx) : Less a a := ⟨a, .refl _, .refl _⟩
theorem Less.mem {a b : List Rx} (h : Less a b) {r' : Rx} (hr : r' ∈ b) : ∃ r ∈ a, Mark r r' := by
  obtain ⟨l, h1, h2⟩ := h
  obtain ⟨r, h3, h4⟩ := h2.mem hr
  exact ⟨r, h1.mem_iff.mp h3, h4⟩
theorem Less.live {a b : List Rx} (h : Less a b) :
    ∃ l, l.Perm (liveSeqs a) ∧ (liveSeqs b).Sublist l := by
  obtain ⟨l, h1, h2⟩ := h
  exact ⟨_, liveSeqs_perm h1, h2.live⟩

/-- Events of records opened and delivered. -/
def Ev.isRec : Ev → Bool
  | .opened .. | .delivered .. => true
  | _ => false

theorem isRec_isRx (l : List Ev) : (l.filter Ev.isRx).filter Ev.isRec = l.filter Ev.isRec := by
  rw [List.filter_filter]
  congr 1
  funext e
  cases e <;> rfl

/-- What a step does to the records held. -/
inductive QStep (env : Env) (poll : Bool) : Eng × Hand → Eng × Hand → Prop
  | less {s s' : Eng} {h h' : Hand} : Less (recs s h) (recs s' h') →
      (∀ e ∈ s'.log.filter Ev.isRx, e ∈ s.log.filter Ev.isRx ∨ (∃ q t b, e = .taken q t b) ∨ ∃ q, e = .accepted q) →
      (∀ e ∈ s.log.filter Ev.isRx, e ∈ s'.log.filter Ev.isRx) →
      (s'.peerEnc = s.peerEnc ∨ (s'.peerEnc = true ∧ ∀ x ∈ recs s' h', x.rcd.epoch < 2)) →
      s'.log.filter Ev.isRec = s.log.filter Ev.isRec →
      QStep env poll (s, h) (s', h')
  | noted {s : Eng} {c l sl b r tag k epoch seq plain} : Opens env s sl b r tag k epoch seq plain →
      QStep env poll (s, .busy c l) (openedSt s b r k epoch seq plain, .busy c l)
  | opened {s : Eng} {c l sl b r tag k epoch seq plain ct content} : Opens env s sl b r tag k epoch seq plain →
      recoverInner plain = some (ct, content) →
      QStep env poll (s, .busy c l) (openedSt s b r k epoch seq plain,
        .busy c (l ++ [openedRx b r epoch seq plain ct content]))
  | plain {s : Eng} {c l sl rest r} : parse13 sl = .ok rest r →
      (isCiphertextHeader (flagsOf sl) && s.peerEnc) = false → split13 sl = ([sl], .done) →
      QStep env poll (s, .busy c l) (s, .busy c (l ++ [plainRx sl r]))
  | deliver {s : Eng} {r} : poll = true → s.release = true → nextApp s = some r →
      QStep env poll (s, .idle) ({ s with rx := markApp s.rx, log := .delivered r.rcd r.opened :: s.log }, .idle)

theorem insertAt_flatten_perm (l : List (List Rx)) (i : Nat) (x : List Rx) :
    (insertAt l i x).flatten.Perm (l.flatten ++ x) := by
  unfold insertAt
  rw [List.flatten_append, List.flatten_cons]
  have : l.flatten = (l.take i).flatten ++ (l.drop i).flatten := by
    rw [← List.flatten_append, List.take_append_drop]
  rw [this, List.append_assoc]
  exact List.Perm.append_left _ List.perm_append_comm

theorem set_flatten_fewer (l : List (List Rx)) (i : Nat) (x : List Rx) :
    Less (l.flatten ++ x) (l.set i x).flatten := by
  by_cases hi : i < l.length
  · rw [List.set_eq_take_append_cons_drop, if_pos hi, List.flatten_append, List.flatten_cons]
    have : l.flatten = (l.take i).flatten ++ (l[i] ++ (l.drop (i + 1)).flatten) := by
      rw [← List.flatten_cons, ← List.drop_eq_getElem_cons hi, ← List.flatten_append,
        List.take_append_drop]
    rw [this]
    refine ⟨(l.take i).flatten ++ (l[i] ++ (x ++ (l.drop (i + 1)).flatten)), ?_, ?_⟩
    · simp only [List.append_assoc]
      refine List.Perm.append_left _ (List.Perm.append_left _ List.perm_append_comm)
    · refine (Fewer.refl _).append ?_
      exact .of_sublist (List.sublist_append_right ..)
  · rw [List.set_eq_of_length_le (by omega)]
    exact ⟨_, .refl _, .of_sublist (List.sublist_append_left ..)⟩

theorem flatten_sublist {α} {a b : List (List α)} (h : a.Sublist b) : a.flatten.Sublist b.flatten := by
  induction h with
  | slnil => exact List.Sublist.refl _
  | cons a _ ih => exact ih.trans (by simp)
  | cons_cons a _ ih => simpa using ih

theorem RStep.quiet {env : Env} {poll : Bool} {s s' : Eng} {h h' : Hand} (hl : Less (recs s h) (recs s' h'))
    (h1 : s'.log = s.log) (h2 : s'.peerEnc = s.peerEnc) : QStep env poll (s, h) (s', h') :=
  .less hl (by rw [h1]; exact fun e he => .inl he) (by rw [h1]; exact fun e he => he) (.inl h2) (by rw [h1])

theorem RStep.q {env : Env} {keys poll : Bool} {s s' : Eng} {a a' : Hand}
    (h : RStep env keys poll (s, a) (s', a')) : QStep env poll (s, a) (s', a') := by
  cases h with
  | other g =>
    have hx : s'.rx = s.rx := congrArg RxPart.rx g
    have hl : s'.log.filter Ev.isRx = s.log.filter Ev.isRx := congrArg RxPart.log g
    have hp : s'.peerEnc = s.peerEnc := congrArg RxPart.peerEnc g
    refine .less ?_ (by rw [hl]; exact fun e he => .inl he) (by rw [hl]; exact fun e he => he) (.inl hp)
      (by rw [← isRec_isRx, hl, isRec_isRx])
    unfold recs
    rw [hx]; exact .refl _
  | arrive => exact quiet (.refl _) rfl rfl
  | noted ho => exact .noted ho
  | opened ho hr => exact .opened ho hr
  | plain h1 h2 h3 => exact .plain h1 h2 h3
  | @drop _ _ l l' hs =>
    exact quiet ⟨_, .refl _, (Fewer.refl _).append (.of_sublist hs)⟩ rfl rfl
  | close => exact quiet (.refl _) rfl rfl
  | done => exact quiet ⟨_, .refl _, .of_sublist (by simp [recs, Hand.recs])⟩ rfl rfl
  | @insert _ _ l i _ _ _ _ =>
    refine quiet ⟨_, insertAt_flatten_perm s.rx i l, ?_⟩ rfl rfl
    simp only [recs, Hand.recs, List.append_nil]
    exact .refl _
  | replace _ _ _ _ _ _ =>
    refine quiet ?_ rfl rfl
    simp only [recs, Hand.recs, List.append_nil]
    exact set_flatten_fewer ..
  | enable i _ _ hi =>
    refine .less ⟨_, .refl _, ?_⟩ (fun e he => .inl he) (fun e he => he) (.inr ⟨rfl, ?_⟩) rfl
    · simp only [recs, Hand.recs, List.append_nil]
      exact .of_sublist (flatten_sublist (List.take_sublist ..))
    · simpa only [recs, Hand.recs, List.append_nil] using hi
  | marked _ => exact quiet ⟨_, .refl _, (markQueue_fewer ..).append (.refl _)⟩ rfl rfl
  | taken _ =>
    refine .less ⟨_, .refl _, (markQueue_fewer ..).append (.refl _)⟩ ?_ ?_ (.inl rfl) rfl
    · intro e he
      rw [List.filter_cons_of_pos (by rfl)] at he
      rcases List.mem_cons.mp he with rfl | he
      · exact .inr (.inl ⟨_, _, _, rfl⟩)
      · exact .inl he
    · intro e he
      rw [List.filter_cons_of_pos (by rfl)]
      exact List.mem_cons_of_mem _ he
  | accepted _ =>
    refine .less (.refl _) ?_ ?_ (.inl rfl) rfl
    · intro e he
      rw [List.filter_cons_of_pos (by rfl)] at he
      rcases List.mem_cons.mp he with rfl | he
      · exact .inr (.inr ⟨_, rfl⟩)
      · exact .inl he
    · intro e he
      rw [List.filter_cons_of_pos (by rfl)]
      exact List.mem_cons_of_mem _ he
  | release _ _ => exact quiet (.refl _) rfl rfl
  | retain _ _ => exact quiet (.refl _) rfl rfl
  | suite _ => exact quiet (.refl _) rfl rfl
  | hsRecv _ _ => exact quiet (.refl _) rfl rfl
  | appRecv _ _ _ => exact quiet (.refl _) rfl rfl
  | newRecv _ _ _ _ _ => exact quiet (.refl _) rfl rfl
  | retry _ =>
    exact quiet ⟨_, .refl _, (Fewer.of_sublist (flatten_sublist List.filter_sublist)).append (.refl _)⟩ rfl rfl
  | purge _ =>
    exact quiet ⟨_, .refl _, (Fewer.of_sublist (flatten_sublist (List.dropWhile_sublist _))).append (.refl _)⟩
      rfl rfl
  | deliver h0 h1 h2 => exact .deliver h0 h1 h2
  | reported => exact quiet (.refl _) rfl rfl

end Verif.E13

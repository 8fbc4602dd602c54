import Verif.Lemmas.Careful13
import Verif.Lemmas.Window
/-!
# Receive epochs and numbers of a DTLS 1.3 session

For a careful caller: the receive epochs held are consecutive, every replay window holds the numbers
opened in its epoch, no number is opened twice, and no opened record is delivered twice.
-/
namespace Verif.E13
open Verif Verif.M Verif.Wire Verif.Window
open Verif.E12 (outputs Call Ret)

/-! ## Numbers in the log -/

def Ev.openNum : Ev → Option (Nat × Nat)
  | .opened _ _ _ _ _ e q => some (e, q)
  | _ => none

def Ev.delNum : Ev → Option (Nat × Nat)
  | .delivered r true => some (r.epoch, r.seq)
  | _ => none

/-- Numbers opened so far, newest first. -/
def openNums (l : List Ev) : List (Nat × Nat) := l.filterMap Ev.openNum
/-- Numbers of the opened records delivered so far. -/
def delNums (l : List Ev) : List (Nat × Nat) := l.filterMap Ev.delNum
/-- Numbers opened in one epoch. -/
def numsIn (e : Nat) (l : List Ev) : List Nat := ((openNums l).filter fun x => x.1 == e).map (·.2)

theorem openNums_isRec (l : List Ev) : openNums (l.filter Ev.isRec) = openNums l := by
  unfold openNums
  rw [List.filterMap_filter]
  congr 1
  funext e
  cases e <;> rfl

theorem delNums_isRec (l : List Ev) : delNums (l.filter Ev.isRec) = delNums l := by
  unfold delNums
  rw [List.filterMap_filter]
  congr 1
  funext e
  cases e <;> rfl

theorem openNums_eq {l l' : List Ev} (h : l'.filter Ev.isRec = l.filter Ev.isRec) : openNums l' = openNums l := by
  rw [← openNums_isRec, h, openNums_isRec]

theorem delNums_eq {l l' : List Ev} (h : l'.filter Ev.isRec = l.filter Ev.isRec) : delNums l' = delNums l := by
  rw [← delNums_isRec, h, delNums_isRec]

theorem mem_numsIn {e n : Nat} {l : List Ev} : n ∈ numsIn e l ↔ (e, n) ∈ openNums l := by
  unfold numsIn
  simp only [List.mem_map, List.mem_filter, beq_iff_eq]
  constructor
  · rintro ⟨⟨a, b⟩, ⟨h1, h2⟩, h3⟩
    dsimp only at h2 h3
    rw [← h2, ← h3]; exact h1
  · exact fun h => ⟨(e, n), ⟨h, rfl⟩, rfl⟩

theorem openNums_opened (k n a c p e q) (l : List Ev) :
    openNums (.opened k n a c p e q :: l) = (e, q) :: openNums l := rfl

theorem numsIn_opened (k n a c p e q) (e' : Nat) (l : List Ev) :
    numsIn e' (.opened k n a c p e q :: l) = if e = e' then q :: numsIn e' l else numsIn e' l := by
  unfold numsIn
  rw [openNums_opened, List.filter_cons]
  by_cases h : e = e' <;> simp [h]

/-! ## Epochs, windows, numbers -/

structure RcvOk (s : Eng) : Prop where
  few : s.appRecv.length ≤ 4
  chain : ∃ a, (a = 3 ∨ 3 ≤ a ∧ s.appRecv.length = 4) ∧ s.appRecv.map (·.epoch) = List.range' a s.appRecv.length
  hs : Rep s.hsReplay (numsIn 2 s.log)
  app : ∀ r ∈ s.appRecv, Rep r.replay (numsIn r.epoch s.log)
  top : ∀ x ∈ openNums s.log, x.1 ≠ 2 → ∃ r ∈ s.appRecv, x.1 ≤ r.epoch
  nodup : (openNums s.log).Nodup

def RcvAt (p : Nat) (s : Eng) (_ : Hand) : Prop := RcvOk s ∧ (p ≤ 1 → s.appRecv = [])

theorem RcvOk.same {s s' : Eng} (h : RcvOk s) (h1 : s'.appRecv = s.appRecv) (h2 : s'.hsReplay = s.hsReplay)
    (hn : openNums s'.log = openNums s.log) : RcvOk s' := by
  have hi : ∀ e, numsIn e s'.log = numsIn e s.log := fun e => by unfold numsIn; rw [hn]
  exact ⟨h1 ▸ h.few, h1 ▸ h.chain, by rw [h2, hi]; exact h.hs,
    fun r hr => by rw [hi]; exact h.app r (h1 ▸ hr), by rw [hn, h1]; exact h.top, by rw [hn]; exact h.nodup⟩

theorem chain_unique {l : List RecvEpoch} {a : Nat} (h : l.map (·.epoch) = List.range' a l.length) {x y : RecvEpoch}
    (hx : x ∈ l) (hy : y ∈ l) (he : x.epoch = y.epoch) : x = y := by
  have hn : (l.map (·.epoch)).Nodup := h ▸ List.nodup_range'
  have hp : l.Pairwise fun x y => x.epoch ≠ y.epoch := List.pairwise_map.mp hn
  clear h hn
  induction l with
  | nil => cases hx
  | cons z l ih =>
    rw [List.pairwise_cons] at hp
    rcases List.mem_cons.mp hx with rfl | hx' <;> rcases List.mem_cons.mp hy with rfl | hy'
    · rfl
    · exact absurd he (hp.1 y hy')
    · exact absurd he.symm (hp.1 x hx')
    · exact ih hx' hy' hp.2

theorem map_updateFirst (ep : Nat) (f : RecvEpoch → RecvEpoch) (hf : ∀ r, (f r).epoch = r.epoch) (l : List RecvEpoch) :
    (updateFirst ep f l).map (·.epoch) = l.map (·.epoch) ∧ (updateFirst ep f l).length = l.length := by
  induction l with
  | nil => exact ⟨rfl, rfl⟩
  | cons x l ih =>
    unfold updateFirst
    split
    · simp [hf]
    · simp [ih]

theorem mem_updateFirst_ne {ep : Nat} {f : RecvEpoch → RecvEpoch} {l : List RecvEpoch}
    {a : Nat} (h : l.map (·.epoch) = List.range' a l.length) {r : RecvEpoch} (hr : r ∈ updateFirst ep f l) :
    (r ∈ l ∧ r.epoch ≠ ep) ∨ ∃ r0 ∈ l, r0.epoch = ep ∧ r = f r0 := by
  have hn : (l.map (·.epoch)).Nodup := h ▸ List.nodup_range'
  have hp : l.Pairwise fun x y => x.epoch ≠ y.epoch := List.pairwise_map.mp hn
  clear h hn
  induction l with
  | nil => cases hr
  | cons z l ih =>
    rw [List.pairwise_cons] at hp
    unfold updateFirst at hr
    split at hr
    · rename_i hz
      rcases List.mem_cons.mp hr with rfl | hr
      · exact .inr ⟨z, by simp, hz, rfl⟩
      · exact .inl ⟨by simp [hr], fun he => hp.1 r hr (hz.trans he.symm)⟩
    · rename_i hz
      rcases List.mem_cons.mp hr with rfl | hr
      · exact .inl ⟨by simp, hz⟩
      · rcases ih hr hp.2 with ⟨h1, h2⟩ | ⟨r0, h1, h2⟩
        · exact .inl ⟨by simp [h1], h2⟩
        · exact .inr ⟨r0, by simp [h1], h2⟩

theorem RcvOk.epoch_le {s : Eng} (h : RcvOk s) {r : RecvEpoch} (hr : r ∈ s.appRecv) : 3 ≤ r.epoch := by
  obtain ⟨a, ha, hc⟩ := h.chain
  have : r.epoch ∈ s.appRecv.map (·.epoch) := List.mem_map_of_mem hr
  rw [hc, List.mem_range'_1] at this
  omega

/-- A record that is opened is new. -/
theorem RcvOk.fresh {env : Env} {s : Eng} (h : RcvOk s) {sl b r tag k ep sq pl}
    (ho : Opens env s sl b r tag k ep sq pl) : (ep, sq) ∉ openNums s.log := by
  have hf := ho.fresh
  unfold Eng.replayCheck at hf
  rw [← mem_numsIn]
  split at hf
  · rename_i he
    rw [he]
    exact ((check_iff h.hs sq).mp hf).1
  · split at hf
    · rename_i x hx
      have h1 := List.mem_of_find?_eq_some hx
      have h2 : x.epoch = ep := by simpa using List.find?_some hx
      rw [← h2]
      exact ((check_iff (h.app x h1) sq).mp hf).1
    · cases hf

theorem RcvOk.opened {env : Env} {s : Eng} (h : RcvOk s) {sl b r tag k ep sq pl}
    (ho : Opens env s sl b r tag k ep sq pl) :
    RcvOk (openedSt s b r k ep sq pl) ∧ (s.appRecv = [] → (openedSt s b r k ep sq pl).appRecv = []) := by
  have hfr := h.fresh ho
  have hl := (openedSt_same s b r k ep sq pl).2.2.2.2.2.2.2.2.2
  obtain ⟨a, ha, hc⟩ := h.chain
  have hnd : (openNums (openedSt s b r k ep sq pl).log).Nodup := by
    rw [hl, openNums_opened]
    exact List.nodup_cons.mpr ⟨hfr, h.nodup⟩
  by_cases he : ep = 2
  · have h1 : (openedSt s b r k ep sq pl).appRecv = s.appRecv := by
      unfold openedSt noteOpened Eng.replayUpdate; rw [if_pos he]
    have h2 : (openedSt s b r k ep sq pl).hsReplay = s.hsReplay.update sq := by
      unfold openedSt noteOpened Eng.replayUpdate; rw [if_pos he]
    refine ⟨⟨h1 ▸ h.few, ⟨a, h1 ▸ ha, h1 ▸ hc⟩, ?_, ?_, ?_, hnd⟩, fun g => h1.trans g⟩
    · rw [h2, hl, numsIn_opened, if_pos he]
      exact rep_update h.hs sq
    · intro x hx
      rw [h1] at hx
      have := h.epoch_le hx
      rw [hl, numsIn_opened, if_neg (by omega)]
      exact h.app x hx
    · rw [hl, openNums_opened, h1]
      intro x hx hne
      rcases List.mem_cons.mp hx with rfl | hx
      · exact absurd he hne
      · exact h.top x hx hne
  · let f := fun e : RecvEpoch => { e with replay := e.replay.update sq, expected := max e.expected (sq + 1) }
    have h1 : (openedSt s b r k ep sq pl).appRecv = updateFirst ep f s.appRecv := by
      unfold openedSt noteOpened Eng.replayUpdate; rw [if_neg he]
    have h2 : (openedSt s b r k ep sq pl).hsReplay = s.hsReplay := by
      unfold openedSt noteOpened Eng.replayUpdate; rw [if_neg he]
    obtain ⟨m1, m2⟩ := map_updateFirst ep f (fun _ => rfl) s.appRecv
    refine ⟨⟨by rw [h1, m2]; exact h.few, ⟨a, by rw [h1, m2]; exact ha, by rw [h1, m1, m2]; exact hc⟩, ?_, ?_, ?_, hnd⟩,
      fun g => by rw [h1, g]; rfl⟩
    · rw [h2, hl, numsIn_opened, if_neg he]
      exact h.hs
    · intro x hx
      rw [h1] at hx
      rw [hl, numsIn_opened]
      rcases mem_updateFirst_ne hc hx with ⟨g1, g2⟩ | ⟨x0, g1, g2, rfl⟩
      · rw [if_neg (fun e => g2 e.symm)]
        exact h.app x g1
      · rw [if_pos g2.symm]
        exact rep_update (h.app x0 g1) sq
    · rw [hl, openNums_opened]
      intro x hx hne
      have key : ∀ y ∈ s.appRecv, ∃ z ∈ (openedSt s b r k ep sq pl).appRecv, y.epoch ≤ z.epoch := by
        intro y hy
        have : y.epoch ∈ (updateFirst ep f s.appRecv).map (·.epoch) := by
          rw [m1]; exact List.mem_map_of_mem hy
        obtain ⟨z, hz, he⟩ := List.mem_map.mp this
        exact ⟨z, by rw [h1]; exact hz, by rw [he]; exact Nat.le_refl _⟩
      rcases List.mem_cons.mp hx with rfl | hx
      · have hk := ho.keyed
        unfold Eng.recvKeys at hk
        rw [if_neg he] at hk
        obtain ⟨x, g1, _⟩ := Option.map_eq_some_iff.mp hk
        have g2 : x.epoch = ep := by simpa using List.find?_some g1
        obtain ⟨z, hz, hle⟩ := key x (List.mem_of_find?_eq_some g1)
        exact ⟨z, hz, g2 ▸ hle⟩
      · obtain ⟨y, hy, hle⟩ := h.top x hx hne
        obtain ⟨z, hz, hle'⟩ := key y hy
        exact ⟨z, hz, Nat.le_trans hle hle'⟩

/-- A new epoch follows the newest. -/
theorem RcvOk.newRecv {s s' : Eng} (h : RcvOk s) {latest : RecvEpoch} {k : Keys} (hl : s.appRecv.getLast? = some latest)
    (h1 : s'.appRecv = (if s.appRecv.length ≥ 4 then s.appRecv.drop 1 else s.appRecv) ++
          [{ epoch := latest.epoch + 1, keys := k, expected := 0, replay := .new }])
    (h2 : s'.hsReplay = s.hsReplay) (h3 : s'.log = s.log) : RcvOk s' := by
  obtain ⟨a, ha, hc⟩ := h.chain
  have hlen : s.appRecv.length ≠ 0 := by
    intro h0; rw [List.length_eq_zero_iff.mp h0] at hl; cases hl
  have hlast : latest.epoch + 1 = a + s.appRecv.length := by
    have := congrArg List.getLast? hc
    rw [List.getLast?_map, hl, List.getLast?_range'] at this
    simp [hlen] at this
    omega
  have hmem : ∀ r ∈ s.appRecv, r.epoch < a + s.appRecv.length := by
    intro r hr
    have : r.epoch ∈ s.appRecv.map (·.epoch) := List.mem_map_of_mem hr
    rw [hc, List.mem_range'_1] at this
    exact this.2
  have hnew : (⟨latest.epoch + 1, k, 0, .new⟩ : RecvEpoch) ∈ s'.appRecv := by rw [h1]; simp
  have htop : ∀ x ∈ openNums s.log, x.1 < latest.epoch + 1 := by
    intro x hx
    by_cases h2 : x.1 = 2
    · omega
    · obtain ⟨r, hr, hle⟩ := h.top x hx h2
      have := hmem r hr
      omega
  refine ⟨?_, ?_, ?_, ?_, ?_, by rw [h3]; exact h.nodup⟩
  · rw [h1]
    have := h.few
    split <;> simp <;> omega
  · rw [h1]
    split
    · rename_i h4
      have h5 := h.few
      refine ⟨a + 1, .inr ⟨by omega, by simp; omega⟩, ?_⟩
      obtain ⟨n, hn⟩ : ∃ n, s.appRecv.length = n + 1 := ⟨s.appRecv.length - 1, by omega⟩
      rw [List.map_append, List.map_drop, hc, hn, List.range'_succ]
      simp only [List.drop_succ_cons, List.drop_zero, List.map_cons, List.map_nil, List.length_append, List.length_drop,
        List.length_cons, List.length_nil, hn, Nat.add_sub_cancel]
      rw [List.range'_1_concat, hlast, hn]
      congr 2
      omega
    · refine ⟨a, .inl (by omega), ?_⟩
      rw [List.map_append, hc]
      simp only [List.map_cons, List.map_nil, List.length_append, List.length_cons, List.length_nil]
      rw [List.range'_1_concat, hlast]
  · rw [h2, h3]; exact h.hs
  · intro r hr
    rw [h1] at hr
    rw [h3]
    rcases List.mem_append.mp hr with hr | hr
    · refine h.app r ?_
      split at hr
      · exact List.mem_of_mem_drop hr
      · exact hr
    · rw [List.mem_singleton.mp hr]
      have : numsIn (latest.epoch + 1) s.log = [] := by
        rw [List.eq_nil_iff_forall_not_mem]
        intro n hn
        exact absurd (htop _ (mem_numsIn.mp hn)) (by simp)
      show Rep ReplayWindow.new (numsIn (latest.epoch + 1) s.log)
      rw [this]
      exact rep_new
  · rw [h3]
    intro x hx _
    exact ⟨_, hnew, Nat.le_of_lt (htop x hx)⟩

theorem RcvAt.step {env : Env} {poll : Bool} {p : Nat} {s s' : Eng} {a a' : Hand}
    (g : RStep env false poll (s, a) (s', a')) (h : RcvAt p s a) : RcvAt p s' a' := by
  have same : s'.appRecv = s.appRecv → s'.hsReplay = s.hsReplay →
      openNums s'.log = openNums s.log → RcvAt p s' a' :=
    fun h1 h2 h3 => ⟨h.1.same h1 h2 h3, fun hp => h1.trans (h.2 hp)⟩
  have opn : ∀ {sl b r tag k ep sq pl} {a : Hand}, Opens env s sl b r tag k ep sq pl →
      RcvAt p (openedSt s b r k ep sq pl) a := fun ho =>
    ⟨(h.1.opened ho).1, fun hp => (h.1.opened ho).2 (h.2 hp)⟩
  cases g with
  | other g =>
    refine same (congrArg RxPart.appRecv g) (congrArg RxPart.hsReplay g) ?_
    have hl : s'.log.filter Ev.isRx = s.log.filter Ev.isRx := congrArg RxPart.log g
    exact openNums_eq (by rw [← isRec_isRx, hl, isRec_isRx])
  | noted ho => exact opn ho
  | opened ho hr => exact opn ho
  | newRecv hl _ _ _ _ =>
    refine ⟨h.1.newRecv hl rfl rfl rfl, fun hp => ?_⟩
    rw [h.2 hp] at hl
    cases hl
  | enable i hk => cases hk
  | release hk => cases hk
  | retain hk => cases hk
  | retry hk => cases hk
  | hsRecv hk => cases hk
  | appRecv hk => cases hk
  | _ => exact same rfl rfl rfl

/-! ## Opened records are delivered once -/

/-- Opened application data waiting, and delivered. -/
def pending (s : Eng) (h : Hand) : List (Nat × Nat) := liveSeqs (recs s h) ++ delNums s.log

structure LiveOk (s : Eng) (h : Hand) : Prop where
  nodup : (pending s h).Nodup
  sub : ∀ x ∈ pending s h, x ∈ openNums s.log

theorem LiveOk.fewer {s s' : Eng} {h h' : Hand} (g : LiveOk s h) {l : List (Nat × Nat)}
    (hp : l.Perm (pending s h)) (hs : (pending s' h').Sublist l) (ho : openNums s'.log = openNums s.log) : LiveOk s' h' :=
  ⟨hs.nodup (hp.nodup_iff.mpr g.nodup), fun x hx => ho ▸ g.sub x (hp.mem_iff.mp (hs.subset hx))⟩

theorem LiveOk.step {env : Env} {poll : Bool} {s s' : Eng} {h h' : Hand} (q : QStep env poll (s, h) (s', h'))
    (hn : (openNums s'.log).Nodup) (hd : ∀ x ∈ recs s h, Held s x) (g : LiveOk s h) : LiveOk s' h' := by
  cases q with
  | less hl _ _ _ he =>
    obtain ⟨l, h1, h2⟩ := hl.live
    refine g.fewer (l := l ++ delNums s.log) (h1.append_right _) ?_ (openNums_eq he)
    unfold pending
    rw [delNums_eq he]
    exact h2.append (.refl _)
  | @noted _ c l sl b r tag k epoch seq plain ho =>
    obtain ⟨e1, _, _, _, _, _, _, _, _, e2⟩ := openedSt_same s b r k epoch seq plain
    have hp : pending (openedSt s b r k epoch seq plain) (.busy c l) = pending s (.busy c l) := by
      unfold pending recs
      rw [e1, e2]; rfl
    refine ⟨hp ▸ g.nodup, fun x hx => ?_⟩
    rw [e2, openNums_opened]
    exact List.mem_cons_of_mem _ (g.sub x (hp ▸ hx))
  | @opened _ c l sl b r tag k epoch seq plain ct content ho hr =>
    obtain ⟨e1, _, _, _, _, _, _, _, _, e2⟩ := openedSt_same s b r k epoch seq plain
    rw [e2, openNums_opened] at hn
    obtain ⟨hn1, hn2⟩ := List.nodup_cons.mp hn
    have hq : (pending (openedSt s b r k epoch seq plain) (.busy c (l ++ [openedRx b r epoch seq plain ct content]))).Perm
        (liveSeqs [openedRx b r epoch seq plain ct content] ++ pending s (.busy c l)) := by
      unfold pending recs Hand.recs
      rw [e1, e2, ← List.append_assoc, liveSeqs_append, ← List.append_assoc]
      exact List.perm_append_comm.append_right _
    have hone : ∀ x ∈ liveSeqs [openedRx b r epoch seq plain ct content], x = (epoch, seq) := by
      intro x hx
      unfold liveSeqs at hx
      obtain ⟨y, hy, rfl⟩ := List.mem_map.mp hx
      rw [List.mem_singleton.mp (List.mem_filter.mp hy).1]
      rfl
    have hnd1 : (liveSeqs [openedRx b r epoch seq plain ct content]).Nodup := by
      unfold liveSeqs
      rw [List.filter_cons]
      split <;> simp
    refine ⟨hq.nodup_iff.mpr (List.nodup_append.mpr ⟨hnd1, g.nodup, ?_⟩), fun x hx => ?_⟩
    · intro x hx y hy he
      rw [hone x hx] at he
      exact hn1 (he ▸ g.sub y hy)
    · rw [e2, openNums_opened]
      rcases List.mem_append.mp (hq.mem_iff.mp hx) with hx | hx
      · rw [hone x hx]; exact List.mem_cons_self
      · exact List.mem_cons_of_mem _ (g.sub x hx)
  | @plain _ c l sl rest r h1 h2 h3 =>
    have hp : pending s (.busy c (l ++ [plainRx sl r])) = pending s (.busy c l) := by
      unfold pending recs Hand.recs
      rw [← List.append_assoc, liveSeqs_append]
      have : liveSeqs [plainRx sl r] = [] := rfl
      rw [this, List.append_nil]
    exact ⟨hp ▸ g.nodup, fun x hx => g.sub x (hp ▸ hx)⟩
  | @deliver _ r h0 h1 h2 =>
    obtain ⟨a, b, g1, g2, g3, g4, _⟩ := nextApp_split h2
    have hh : r.hss = [] := by
      have hm : r ∈ recs s .idle := by
        unfold recs
        exact List.mem_append_left _ (g1 ▸ List.mem_append_right _ List.mem_cons_self)
      have := (hd r hm).hss
      unfold recHss hbs at this
      rw [g3, if_neg (by decide)] at this
      simpa using this
    have l1 : liveSeqs [r] = if r.opened then [(r.rcd.epoch, r.rcd.seq)] else [] := by
      unfold liveSeqs
      cases ho : r.opened <;> simp [live, ho, g3, g4]
    have l2 : liveSeqs [{ r with handled := true }] = [] := by
      unfold liveSeqs
      simp [live, Rx.isHandled, hh]
    have e1 : pending s .idle = liveSeqs a ++ (liveSeqs [r] ++ liveSeqs b) ++ delNums s.log := by
      unfold pending recs Hand.recs
      rw [List.append_nil, g1, ← List.singleton_append, liveSeqs_append, liveSeqs_append]
    have e2 : pending { s with rx := markApp s.rx, log := .delivered r.rcd r.opened :: s.log } .idle =
        liveSeqs a ++ liveSeqs b ++ delNums (.delivered r.rcd r.opened :: s.log) := by
      unfold pending recs Hand.recs
      dsimp only
      rw [List.append_nil, g2, ← List.singleton_append, liveSeqs_append, liveSeqs_append, l2, List.nil_append]
    have e3 : delNums (.delivered r.rcd r.opened :: s.log) = liveSeqs [r] ++ delNums s.log := by
      rw [l1]
      cases r.opened <;> rfl
    refine g.fewer (l := pending { s with rx := markApp s.rx, log := .delivered r.rcd r.opened :: s.log } .idle)
      ?_ (.refl _) rfl
    rw [e1, e2, e3]
    simp only [List.append_assoc]
    refine List.Perm.append_left _ ?_
    rw [← List.append_assoc, ← List.append_assoc]
    exact List.perm_append_comm.append_right _

/-! ## Together, by phases -/

section rcv
variable {env : Env}

def RcvBase (env : Env) (n p : Nat) (s : Eng) (h : Hand) : Prop := RcvAt p s h ∧ LiveOk s h ∧ Base env n p s h

/-- What is left when a call fails. -/
def RcvLeft (e : Eng) : Prop := RcvOk e ∧ LiveOk e .idle

theorem RcvBase.step {n p : Nat} (hn : n ≤ 2) (hp : p < 4) {poll : Bool} {s s' : Eng} {a a' : Hand}
    (g : RStep env false poll (s, a) (s', a')) (h : RcvBase env n p s a) : RcvBase env n p s' a' := by
  have h1 := h.1.step g
  exact ⟨h1, h.2.1.step g.q h1.1.nodup h.2.2.2.2.held, h.2.2.step hn hp g⟩

theorem rcv_phases {n : Nat} (hn : n ≤ 2) :
    Phases env (fun p e => RcvBase env n p e .idle) (fun _ => RcvLeft) :=
  phases_rx (fun _ hp _ _ _ _ _ => RcvBase.step hn hp)
    (fun _ h => ⟨⟨h.1.1.same rfl rfl rfl, h.1.2⟩,
      h.2.1.step (RStep.retry (env := env) (keys := true) (poll := false) rfl).q h.1.1.nodup h.2.2.2.2.held,
      h.2.2.1, h.2.2.2.1, prov_keep (.one (.retry (keys := true) rfl)) h.2.2.2.2⟩)
    (fun _ _ _ h => ⟨h.1.1, h.2.1⟩)

theorem LiveOk.same {e e' : Eng} (h : LiveOk e .idle) (h1 : e'.rx = e.rx) (h2 : e'.log = e.log) : LiveOk e' .idle := by
  have : pending e' .idle = pending e .idle := by unfold pending recs; rw [h1, h2]
  exact ⟨this ▸ h.nodup, fun x hx => by rw [h2]; exact h.sub x (this ▸ hx)⟩

/-- Turning on the peer's encryption keeps epochs and numbers right whether it fails or not. -/
theorem rcv_enable {p : Nat} {e : Eng} (h1 : RcvAt p e .idle) (h2 : LiveOk e .idle) (h3 : Prov env e .idle) :
    RcvAt p (enablePeerEncryption env e).2 .idle ∧ LiveOk (enablePeerEncryption env e).2 .idle := by
  obtain ⟨i, hi, g⟩ := enablePeerEncryption_split env false false e
  have g0 := (RStep.enable (env := env) (keys := true) (poll := false) (s := e) i rfl rfl hi).q
  have k := RSteps.keeps (env := env) (keys := false) (poll := false)
    (P := fun s h => RcvAt p s h ∧ LiveOk s h ∧ Prov env s h) ?_ g
    ⟨⟨h1.1.same rfl rfl rfl, h1.2⟩, h2.step g0 h1.1.nodup h3.held, h3.step g0 nofun⟩
  · exact ⟨k.1, k.2.1⟩
  · intro s s' a a' g ⟨x1, x2, x3⟩
    have y1 := x1.step g
    exact ⟨y1, x2.step g.q y1.1.nodup x3.held, x3.step g.q nofun⟩

/-- The first application keys. -/
theorem RcvOk.first {e e' : Eng} (h : RcvOk e) (h0 : e.appRecv = []) {k : Keys}
    (h1 : e'.appRecv = [{ epoch := 3, keys := k, expected := 0, replay := .new }]) (h2 : e'.hsReplay = e.hsReplay)
    (h3 : e'.log = e.log) : RcvOk e' := by
  have ht : ∀ x ∈ openNums e.log, x.1 = 2 := by
    intro x hx
    by_cases he : x.1 = 2
    · exact he
    · obtain ⟨r, hr, _⟩ := h.top x hx he
      rw [h0] at hr; cases hr
  refine ⟨by rw [h1]; simp, ⟨3, .inl rfl, by rw [h1]; rfl⟩, by rw [h2, h3]; exact h.hs, ?_, ?_, by rw [h3]; exact h.nodup⟩
  · intro r hr
    rw [h1, List.mem_singleton] at hr
    rw [hr, h3]
    have : numsIn 3 e.log = [] := by
      rw [List.eq_nil_iff_forall_not_mem]
      intro n hn
      exact absurd (ht _ (mem_numsIn.mp hn)) (by simp)
    show Rep ReplayWindow.new (numsIn 3 e.log)
    rw [this]
    exact rep_new
  · rw [h3]
    intro x hx hne
    exact absurd (ht x hx) hne

theorem rcv_client : CCare env (fun p e => RcvBase env 1 p e .idle) (fun _ => RcvLeft)
    (fun e => RcvBase env 1 0 e .idle) where
  toPhases := rcv_phases (by decide)
  hs e a b h := by
    refine wp_installHandshakeKeys ?_ (fun _ _ => ⟨h.1.1, h.2.1⟩)
      (fun _ _ _ => ⟨h.1.1.same rfl rfl rfl, h.2.1.same rfl rfl⟩)
    intro _ ks kr _ _ _
    obtain ⟨h1, h2, h3⟩ := h.2.2
    exact ⟨⟨h.1.1.same rfl rfl rfl, h.1.2⟩, h.2.1.same rfl rfl,
      ⟨fun _ => h1.1 (by decide), nofun, nofun⟩, fun _ => h2 (by decide), h3.same rfl rfl rfl⟩
  enable e h := by
    obtain ⟨k1, k2⟩ := rcv_enable (env := env) h.1 h.2.1 h.2.2.2.2
    refine wp_mono (wp_and (Base.enable (by decide) (by decide) h.2.2)
      (to_wp (R := fun e' => RcvAt 0 e' .idle ∧ LiveOk e' .idle) ⟨k1, k2⟩)) ?_ ?_
    · exact fun _ _ g => ⟨⟨g.2.1.1, fun _ => g.2.1.2 (by decide)⟩, g.2.2, g.1⟩
    · exact fun _ _ g => ⟨g.2.1.1, g.2.2⟩
  weak1 _ h := ⟨h.1.1, h.2.1⟩
  appKeys e a b h := by
    refine wp_installApplicationKeys ?_ (fun _ _ => ⟨h.1.1, h.2.1⟩)
      (fun _ _ _ => ⟨h.1.1.same rfl rfl rfl, h.2.1.same rfl rfl⟩)
    intro _ ks kr _ _ _ _
    obtain ⟨h1, _, h3⟩ := h.2.2
    have h0 := h.1.2 (by decide)
    exact ⟨⟨h.1.1.first h0 (k := kr) (by rw [h0]; rfl) rfl rfl, fun hp => absurd hp (by decide)⟩, h.2.1.same rfl rfl,
      ⟨fun _ => h1.1 (by decide), fun _ => h1.2.1 (by decide), nofun⟩, nofun, h3.same rfl rfl rfl⟩
  release e h := ⟨⟨h.1.1.same rfl rfl rfl, fun hp => absurd hp (by decide)⟩, h.2.1.same rfl rfl,
    ⟨nofun, fun _ => h.2.2.1.2.1 (by decide), fun _ => rfl⟩, nofun,
      prov_keep (.one (.release (keys := true) rfl rfl)) h.2.2.2.2⟩

theorem rcv_server : SCare env (fun p e => RcvBase env 2 p e .idle) (fun _ => RcvLeft)
    (fun e => RcvAt 2 e .idle ∧ LiveOk e .idle ∧ Base env 2 1 e .idle) where
  toPhases := rcv_phases (by decide)
  hs e a b h := by
    refine wp_installHandshakeKeys ?_ (fun _ _ => ⟨h.1.1, h.2.1⟩)
      (fun _ _ _ => ⟨h.1.1.same rfl rfl rfl, h.2.1.same rfl rfl⟩)
    intro _ ks kr _ _ _
    obtain ⟨h1, h2, h3⟩ := h.2.2
    exact ⟨⟨h.1.1.same rfl rfl rfl, fun _ => h.1.2 (by decide)⟩, h.2.1.same rfl rfl,
      ⟨fun _ => h1.1 (by decide), nofun, nofun⟩, fun _ => h2 (by decide), h3.same rfl rfl rfl⟩
  appKeys e a b h := by
    refine wp_installApplicationKeys ?_ (fun _ _ => ⟨h.1.1, h.2.1⟩)
      (fun _ _ _ => ⟨h.1.1.same rfl rfl rfl, h.2.1.same rfl rfl⟩)
    intro _ ks kr _ _ _ _
    obtain ⟨h1, h2, h3⟩ := h.2.2
    have h0 := h.1.2 (by decide)
    exact ⟨⟨h.1.1.first h0 (k := kr) (by rw [h0]; rfl) rfl rfl, fun hp => absurd hp (by decide)⟩, h.2.1.same rfl rfl,
      h1, h2, h3.same rfl rfl rfl⟩
  enable e h := by
    obtain ⟨k1, k2⟩ := rcv_enable (env := env) h.1 h.2.1 h.2.2.2.2
    refine wp_mono (wp_and (Base.enable (by decide) (by decide) h.2.2)
      (to_wp (R := fun e' => RcvAt 2 e' .idle ∧ LiveOk e' .idle) ⟨k1, k2⟩)) ?_ ?_
    · exact fun _ _ g => ⟨g.2.1, g.2.2, g.1⟩
    · exact fun _ _ g => ⟨g.2.1.1, g.2.2⟩
  release e h := ⟨⟨h.1.1.same rfl rfl rfl, fun hp => absurd hp (by decide)⟩, h.2.1.same rfl rfl,
    ⟨nofun, fun _ => h.2.2.1.2.1 (by decide), fun _ => rfl⟩, nofun,
      prov_keep (.one (.retain (keys := true) rfl rfl)) h.2.2.2.2⟩

end rcv

variable {env : PEnv} {cfg : Cfg} {R : Role} {s0 : Ses R.St}

/-- Receive epochs, windows and numbers throughout, for a careful caller. -/
theorem Start.rcv (h : Start env cfg R s0) (cs : List Call) (ha : Careful R env s0 cs) :
    RcvLeft (run R env s0 cs).2.eng := by
  have h1 : s0.eng.appRecv = [] := congrArg RxPart.appRecv h.rp0
  have h2 : s0.eng.hsReplay = .new := congrArg RxPart.hsReplay h.rp0
  have h3 : s0.eng.rx = [] := congrArg RxPart.rx h.rp0
  have hl : s0.eng.log = [] := h.saved0.2.2.1
  have key : ∀ n, 1 ≤ n → RcvBase env.toEnv n 0 s0.eng .idle := by
    intro n hn
    have hp : pending s0.eng .idle = [] := by unfold pending recs; rw [h3, hl]; rfl
    refine ⟨⟨⟨by rw [h1]; simp, ⟨3, .inl rfl, by rw [h1]; rfl⟩, by rw [h2, hl]; exact rep_new,
      by rw [h1]; exact (fun _ h => nomatch h), by rw [hl]; exact (fun _ h => nomatch h), by rw [hl]; exact List.nodup_nil⟩,
      fun _ => h1⟩, ⟨by rw [hp]; exact List.nodup_nil, by rw [hp]; exact fun _ h => nomatch h⟩, h.base hn⟩
  exact h.care rcv_client rcv_server (fun _ _ _ h => h) (fun _ _ _ h => h) (fun _ _ h => ⟨h.1.1, h.2.1⟩)
    (fun _ _ h => ⟨h.1.1, h.2.1⟩) (key 1 (by decide)) (key 2 (by decide)) cs ha

end Verif.E13

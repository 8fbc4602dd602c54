import Verif.Lemmas.Careful13
import Verif.Lemmas.Run13
/-!
# Record numbers of a DTLS 1.3 session are used once
-/
namespace Verif.E13
open Verif Wire Window Timer Aead M
open Verif.E12 (Call)

/-- Invariants of the transmit side by phases. -/
theorem phases_tx {env : Env} {Q : Nat → TxPart → Prop} {G : Cfg → Nat → UInt8 → Nat → Bytes → Prop}
    {W : Nat → Eng → Prop} (hi : ∀ p, p < 4 → TxInv env (fun _ => True) (Q p) G)
    (hs : ∀ p, p < 4 → ∀ (s : Eng) n, Q p s.q → Q p { s.q with suite := some n })
    (hl : ∀ p, p < 4 → SentOk (Q p))
    (hr : ∀ s : Eng, Q 0 s.q → Q 0 { s.q with hsSeq := 0 })
    (hw : ∀ p, p < 2 → ∀ e, TxOk (Q p) G e → W p e) : Phases env (fun p e => TxOk (Q p) G e) W where
  frame p hp := (hi p hp).frame (hs p hp)
  api p hp := (hi p hp).api
  poll p hp e b n h := pollOutput_tx (hl p hp) h b n
  app := (hi 3 (by decide)).app
  retry e h := ⟨hr e h.q, h.g, h.r⟩
  weak := hw

/-- Epoch and number of a queued record. -/
def Ev.num : Ev → Option (Nat × Nat)
  | .queued _ _ ep n _ => some (ep, n)
  | _ => none

/-- Whether an event is a record queued in an epoch. -/
def Ev.inEpoch (ep : Nat) : Ev → Bool
  | .queued _ _ e _ _ => e == ep
  | _ => false

/-- No number was used twice in an epoch, and every epoch has one set of keys. -/
structure Uniq (l : List Ev) : Prop where
  nodup : (l.filterMap Ev.num).Nodup
  same : ∀ k k' c c' ep n n' f f', Ev.queued k c ep n f ∈ l → Ev.queued k' c' ep n' f' ∈ l → k = k'

theorem Uniq.other {l : List Ev} (h : Uniq l) {e : Ev} (he : ∀ a b c d f, e ≠ .queued a b c d f) : Uniq (e :: l) := by
  refine ⟨?_, ?_⟩
  · cases e <;> first | exact h.nodup | exact absurd rfl (he _ _ _ _ _)
  · intro k k' c c' ep n n' f f' h1 h2
    rcases List.mem_cons.mp h1 with h1 | h1
    · exact absurd h1.symm (he _ _ _ _ _)
    · rcases List.mem_cons.mp h2 with h2 | h2
      · exact absurd h2.symm (he _ _ _ _ _)
      · exact h.same _ _ _ _ _ _ _ _ _ h1 h2

theorem Uniq.push {l : List Ev} (h : Uniq l) {k : Option Keys} {c : UInt8} {ep n : Nat} {f : Bytes}
    (hn : ∀ k' c' n' f', Ev.queued k' c' ep n' f' ∈ l → n' < n ∧ k' = k) : Uniq (.queued k c ep n f :: l) := by
  refine ⟨?_, ?_⟩
  · show ((ep, n) :: l.filterMap Ev.num).Nodup
    refine List.nodup_cons.mpr ⟨?_, h.nodup⟩
    intro hm
    obtain ⟨e, he, hq⟩ := List.mem_filterMap.mp hm
    cases e <;> try (cases hq; done)
    cases hq
    exact absurd (hn _ _ _ _ he).1 (Nat.lt_irrefl _)
  · intro k1 k2 c1 c2 e1 n1 n2 f1 f2 h1 h2
    rcases List.mem_cons.mp h1 with h1 | h1
    · cases h1
      rcases List.mem_cons.mp h2 with h2 | h2
      · cases h2; rfl
      · exact (hn _ _ _ _ h2).2.symm
    · rcases List.mem_cons.mp h2 with h2 | h2
      · cases h2; exact (hn _ _ _ _ h1).2
      · exact h.same _ _ _ _ _ _ _ _ _ h1 h2

theorem count_push (l : List Ev) (k c) (ep n : Nat) (f) (a : Nat) :
    (Ev.queued k c ep n f :: l).countP (Ev.inEpoch a) = l.countP (Ev.inEpoch a) + if ep = a then 1 else 0 := by
  rw [List.countP_cons]
  congr 1
  unfold Ev.inEpoch
  simp

/-- Where the number of a record stands against the counters. -/
inductive Placed (q : TxPart) (k : Option Keys) (ep n : Nat) : Prop
  | clear : ep = 0 → k = none → n < q.seq0 → Placed q k ep n
  | hs : ep = 2 → k.isSome = true → k = q.hsSend → n < q.hsSeq → Placed q k ep n
  | old : 3 ≤ ep → ep < q.appEpoch → k.isSome = true → Placed q k ep n
  | app : ep = q.appEpoch → k.isSome = true → (q.appSend = k ∨ q.appSend = none) → n < q.appSeq → Placed q k ep n

/-- The numbers and keys of the records made so far, and the counters. -/
structure NumOk (q : TxPart) : Prop where
  prev : q.prevSend = none
  app : 3 ≤ q.appEpoch
  uniq : Uniq q.log
  placed : ∀ k c ep n f, Ev.queued k c ep n f ∈ q.log → Placed q k ep n
  count : q.sendCount = q.log.countP (Ev.inEpoch q.appEpoch)

/-- The same by phase. -/
structure NumAt (p : Nat) (q : TxPart) : Prop extends NumOk q where
  zero : p = 0 → q.hsSend = none ∧ ∀ k c ep n f, Ev.queued k c ep n f ∈ q.log → ep = 0
  early : p ≤ 1 → q.appSend = none ∧ q.appEpoch = 3 ∧ ∀ k c ep n f, Ev.queued k c ep n f ∈ q.log → ep ≤ 2

/-- Epochs of saved records. -/
def NumG (_ : Cfg) (app : Nat) (_ : UInt8) (ep : Nat) (_ : Bytes) : Prop := ep = 0 ∨ ep = 2 ∨ ep = app

/-- An event that queues nothing. -/
theorem NumAt.event {p : Nat} {q : TxPart} (h : NumAt p q) {e : Ev} (he : ∀ a b c d f, e ≠ .queued a b c d f) :
    NumAt p { q with log := e :: q.log } := by
  have hm : ∀ k c ep n f, Ev.queued k c ep n f ∈ e :: q.log → Ev.queued k c ep n f ∈ q.log := by
    intro k c ep n f h
    rcases List.mem_cons.mp h with h | h
    · exact absurd h.symm (he _ _ _ _ _)
    · exact h
  refine ⟨⟨h.prev, h.app, h.uniq.other he, fun k c ep n f hq => ?_, ?_⟩, fun hp => ⟨(h.zero hp).1, ?_⟩,
    fun hp => ⟨(h.early hp).1, (h.early hp).2.1, ?_⟩⟩
  · cases h.placed k c ep n f (hm _ _ _ _ _ hq) with
    | clear a b c => exact .clear a b c
    | hs a b c d => exact .hs a b c d
    | old a b c => exact .old a b c
    | app a b c d => exact .app a b c d
  · show q.sendCount = (e :: q.log).countP _
    rw [List.countP_cons, h.count]
    have : Ev.inEpoch q.appEpoch e = false := by
      cases e <;> first | rfl | exact absurd rfl (he _ _ _ _ _)
    show _ = _ + if Ev.inEpoch q.appEpoch e = true then 1 else 0
    rw [this]
    rfl
  · intro k c ep n f hq; exact (h.zero hp).2 _ _ _ _ _ (hm _ _ _ _ _ hq)
  · intro k c ep n f hq; exact (h.early hp).2.2 _ _ _ _ _ (hm _ _ _ _ _ hq)

/-- Counters and keys that numbers do not depend on. -/
theorem NumAt.same {p : Nat} {q q' : TxPart} (h : NumAt p q) (h1 : q'.prevSend = q.prevSend) (h2 : q'.appEpoch = q.appEpoch)
    (h3 : q'.log = q.log) (h4 : q'.seq0 = q.seq0) (h5 : q'.hsSend = q.hsSend) (h6 : q'.hsSeq = q.hsSeq)
    (h7 : q'.appSend = q.appSend) (h8 : q'.appSeq = q.appSeq) (h9 : q'.sendCount = q.sendCount) : NumAt p q' := by
  refine ⟨⟨h1.trans h.prev, h2 ▸ h.app, h3 ▸ h.uniq, fun k c ep n f hq => ?_, ?_⟩, fun hp => ?_, fun hp => ?_⟩
  · cases h.placed k c ep n f (h3 ▸ hq) with
    | clear a b c => exact .clear a b (h4 ▸ c)
    | hs a b c d => exact .hs a b (c.trans h5.symm) (h6 ▸ d)
    | old a b c => exact .old a (h2 ▸ b) c
    | app a b c d => exact .app (a.trans h2.symm) b (h7 ▸ c) (h8 ▸ d)
  · rw [h9, h3, h2]; exact h.count
  · rw [h5, h3]; exact h.zero hp
  · rw [h7, h2, h3]; exact h.early hp

theorem numAt_inv (env : Env) (p : Nat) : TxInv env (fun _ => True) (NumAt p) NumG where
  plain s c f h _ _ _ := by
    rw [emitPlain_q]
    have hm : ∀ k c' ep n f', Ev.queued k c' ep n f' ∈ Ev.queued none c 0 s.seq0 f :: s.q.log →
        (k = none ∧ ep = 0 ∧ n = s.seq0) ∨ Ev.queued k c' ep n f' ∈ s.q.log := by
      intro k c' ep n f' hq
      rcases List.mem_cons.mp hq with hq | hq
      · cases hq; exact .inl ⟨rfl, rfl, rfl⟩
      · exact .inr hq
    have ha := h.app
    refine ⟨⟨h.prev, h.app, h.uniq.push ?_, fun k c ep n f hq => ?_, ?_⟩, fun hp => ⟨(h.zero hp).1, ?_⟩,
      fun hp => ⟨(h.early hp).1, (h.early hp).2.1, ?_⟩⟩
    · intro k' c' n' f' hq
      cases h.placed _ _ _ _ _ hq with
      | clear a b c => exact ⟨c, b⟩
      | hs a b c d => cases a
      | old a b c => omega
      | app a b c d => omega
    · rcases hm _ _ _ _ _ hq with ⟨rfl, rfl, rfl⟩ | hq
      · exact .clear rfl rfl (Nat.lt_succ_self _)
      · cases h.placed _ _ _ _ _ hq with
        | clear a b c => exact .clear a b (Nat.lt_succ_of_lt c)
        | hs a b c d => exact .hs a b c d
        | old a b c => exact .old a b c
        | app a b c d => exact .app a b c d
    · show s.q.sendCount = (_ :: s.q.log).countP (Ev.inEpoch s.q.appEpoch)
      rw [count_push, h.count, if_neg (by omega)]
      rfl
    · intro k c ep n f hq
      rcases hm _ _ _ _ _ hq with ⟨_, g, _⟩ | hq
      · exact g
      · exact (h.zero hp).2 _ _ _ _ _ hq
    · intro k c ep n f hq
      rcases hm _ _ _ _ _ hq with ⟨_, g, _⟩ | hq
      · omega
      · exact (h.early hp).2.2 _ _ _ _ _ hq
  sealed s k ep h := by
    rw [sealedSt_q]
    exact h.event nofun
  cipher s c ep f suite tag k ct h g hep hs hr hm := by
    have h' : NumAt p (sealedSt s k ep).q := by rw [sealedSt_q]; exact h.event nofun
    have hq' : ∀ e, e ∈ (sealedSt s k ep).q.log → (∀ a b c, e ≠ .sealed a b c (s.slotSeq (s.slot ep))) → e ∈ s.q.log := by
      intro e he hn
      rw [sealedSt_q] at he
      rcases List.mem_cons.mp he with he | he
      · exact absurd he (hn _ _ _)
      · exact he
    rw [emitCipher_q]
    have ha := h.app
    have hpr : s.prevSend = none := h.prev
    have hslot : s.slot ep = if ep = 2 then .hs else .app := by
      unfold Eng.slot; rw [hpr]; simp
    have hk := hs.keys
    generalize hu : (sealedSt s k ep) = u at h'
    have e1 : u.slotSeq (s.slot ep) = s.slotSeq (s.slot ep) := by rw [← hu]; rfl
    have e2 : u.appEpoch = s.appEpoch := by rw [← hu]; rfl
    have e3 : u.hsSend = s.hsSend := by rw [← hu]; rfl
    have e4 : u.appSend = s.appSend := by rw [← hu]; rfl
    have e5 : u.hsSeq = s.hsSeq := by rw [← hu]; rfl
    have e6 : u.appSeq = s.appSeq := by rw [← hu]; rfl
    rw [e1]
    by_cases h2 : ep = 2
    · subst h2
      rw [hslot] at hk ⊢
      simp only [if_pos] at hk ⊢
      have hk : s.hsSend = some k := hk
      have hsq : s.slotSeq .hs = u.hsSeq := e5.symm
      rw [hsq]
      refine ⟨⟨h'.prev, h'.app, h'.uniq.push ?_, fun k' c' ep' n' f' hq => ?_, ?_⟩, fun hp => ?_,
        fun hp => ⟨(h'.early hp).1, (h'.early hp).2.1, ?_⟩⟩
      · intro k' c' n' f' hq
        cases h'.placed _ _ _ _ _ hq with
        | clear a b c => cases a
        | hs a b c d => exact ⟨d, c.trans (e3.trans hk)⟩
        | old a b c => omega
        | app a b c d =>
          have : 3 ≤ u.q.appEpoch := h'.app
          omega
      · rcases List.mem_cons.mp hq with hq | hq
        · cases hq
          exact .hs rfl rfl (hk.symm.trans e3.symm) (Nat.lt_succ_self _)
        · cases h'.placed _ _ _ _ _ hq with
          | clear a b c => exact .clear a b c
          | hs a b c d => exact .hs a b c (Nat.lt_succ_of_lt d)
          | old a b c => exact .old a b c
          | app a b c d => exact .app a b c d
      · show u.q.sendCount = (_ :: u.q.log).countP (Ev.inEpoch u.q.appEpoch)
        have : 3 ≤ u.q.appEpoch := h'.app
        rw [count_push, h'.count, if_neg (by omega)]
        rfl
      · rw [(show u.hsSend = none from (h'.zero hp).1)] at e3
        rw [hk] at e3; cases e3
      · intro k c ep n f hq
        rcases List.mem_cons.mp hq with hq | hq
        · cases hq; omega
        · exact (h'.early hp).2.2 _ _ _ _ _ hq
    · have happ : ep = u.appEpoch := by
        rw [e2]
        rcases g with g | g | g
        · rcases hep with hep | hep
          · exact absurd g hep
          · exact hep
        · exact absurd g h2
        · exact g
      rw [hslot, if_neg h2] at hk ⊢
      have hk : s.appSend = some k := hk
      have hsq : s.slotSeq .app = u.appSeq := e6.symm
      rw [hsq]
      have hcs : (countSent u .app ep).q = { u.q with
          appSeq := u.appSeq + 1, sendCount := u.sendCount + 1,
          needsKu := if u.sendCount + 1 ≥ u.threshold then true else u.needsKu } := by
        unfold countSent
        have : 3 ≤ ep := by rw [happ, e2]; exact ha
        simp only [if_pos this]
        rfl
      rw [hcs]
      have hu3 : 3 ≤ u.q.appEpoch := h'.app
      have happ' : ep = u.q.appEpoch := happ
      refine ⟨⟨h'.prev, h'.app, h'.uniq.push ?_, fun k' c' ep' n' f' hq => ?_, ?_⟩, fun hp => ?_, fun hp => ?_⟩
      · intro k' c' n' f' hq
        cases h'.placed _ _ _ _ _ hq with
        | clear a b c => omega
        | hs a b c d => exact absurd a h2
        | old a b c => omega
        | app a b c d =>
          refine ⟨d, ?_⟩
          rcases c with c | c
          · exact c.symm.trans (e4.trans hk)
          · rw [show u.q.appSend = s.appSend from e4, hk] at c; cases c
      · rcases List.mem_cons.mp hq with hq | hq
        · cases hq
          exact .app happ rfl (.inl (e4.trans hk)) (Nat.lt_succ_self _)
        · cases h'.placed _ _ _ _ _ hq with
          | clear a b c => exact .clear a b c
          | hs a b c d => exact .hs a b c d
          | old a b c => exact .old a b c
          | app a b c d => exact .app a b c (Nat.lt_succ_of_lt d)
      · show u.q.sendCount + 1 = (_ :: u.q.log).countP (Ev.inEpoch u.q.appEpoch)
        rw [count_push, h'.count, if_pos happ']
      · have := (h'.early (by omega)).1
        rw [show u.q.appSend = s.appSend from e4, hk] at this; cases this
      · have := (h'.early hp).1
        rw [show u.q.appSend = s.appSend from e4, hk] at this; cases this
  sealDg s h := h.same rfl rfl rfl rfl rfl rfl rfl rfl rfl
  lost s h := by
    refine ⟨⟨h.prev, h.app, h.uniq, fun k c ep n f hq => ?_, h.count⟩, h.zero, fun hp => ⟨rfl, (h.early hp).2⟩⟩
    cases h.placed _ _ _ _ _ hq with
    | clear a b c => exact .clear a b c
    | hs a b c d => exact .hs a b c d
    | old a b c => exact .old a b c
    | app a b c d => exact .app a b (.inr rfl) d
  rotate s cur new suite secret h hc hk _ _ _ _ := by
    have hp : ¬ p ≤ 1 := by
      intro hp
      have := (h.early hp).1
      rw [show s.q.appSend = _ from hc] at this
      cases this
    rw [rotateSend_q]
    have ha := h.app
    have hle : ∀ k c ep n f, Ev.queued k c ep n f ∈ s.q.log → ep ≤ s.q.appEpoch := by
      intro k c ep n f hq
      cases h.placed _ _ _ _ _ hq with
      | clear a b c => omega
      | hs a b c d => omega
      | old a b c => omega
      | app a b c d => omega
    refine ⟨⟨rfl, Nat.le_succ_of_le ha, h.uniq.other nofun, fun k c ep n f hq => ?_, ?_⟩, fun h0 => by omega,
      fun h0 => absurd h0 hp⟩
    · rcases List.mem_cons.mp hq with hq | hq
      · cases hq
      · cases h.placed _ _ _ _ _ hq with
        | clear a b c => exact .clear a b c
        | hs a b c d => exact .hs a b c d
        | old a b c => exact .old a (Nat.lt_succ_of_lt b) c
        | app a b c d => exact .old (by omega) (by show ep < s.q.appEpoch + 1; omega) b
    · show 0 = (_ :: s.q.log).countP (Ev.inEpoch (s.q.appEpoch + 1))
      symm
      rw [List.countP_eq_zero]
      intro e he
      rcases List.mem_cons.mp he with rfl | he
      · nofun
      · cases e <;> try (simp [Ev.inEpoch]; done)
        have := hle _ _ _ _ _ he
        show ¬ (_ == _) = true
        simp; omega
  ackRec s ep f _ h _ := h.elim (fun h => .inr (.inl h)) fun h => .inr (.inr h.1)
  ku s r h := (h.event (e := .keyUpdate s.appEpoch r) nofun).same rfl rfl rfl rfl rfl rfl rfl rfl rfl
  asked s h := h.same rfl rfl rfl rfl rfl rfl rfl rfl rfl
  abort s h := h.same rfl rfl rfl rfl rfl rfl rfl rfl rfl
  hs s ep f tag _ h _ := h.elim .inl fun h => .inr (.inl h.1)
  kuRec s n r _ := .inr (.inr rfl)
  alertRec s _ := .inr (.inr rfl)
  dataRec s d _ _ := .inr (.inr rfl)

theorem Uniq.filter {l : List Ev} (h : Uniq (l.filter Ev.isTx)) : Uniq l := by
  have hm : ∀ (l : List Ev), (l.filter Ev.isTx).filterMap Ev.num = l.filterMap Ev.num := by
    intro l
    induction l with
    | nil => rfl
    | cons e l ih => cases e <;> simp [List.filter_cons, Ev.isTx, Ev.num, List.filterMap_cons, ih]
  refine ⟨hm l ▸ h.nodup, fun k k' c c' ep n n' f f' h1 h2 => h.same k k' c c' ep n n' f f'
    (List.mem_filter.mpr ⟨h1, rfl⟩) (List.mem_filter.mpr ⟨h2, rfl⟩)⟩

theorem numAt_phases (env : Env) : Phases env (fun p e => TxOk (NumAt p) NumG e) (fun _ e => Uniq e.log) :=
  phases_tx (fun p _ => numAt_inv env p) (fun p _ s n h => h.same rfl rfl rfl rfl rfl rfl rfl rfl rfl)
    (fun p _ s b rest h _ => (h.event (e := .sent b) nofun).same rfl rfl rfl rfl rfl rfl rfl rfl rfl)
    (fun s h => by
      have hz := h.zero rfl
      refine ⟨⟨h.prev, h.app, h.uniq, fun k c ep n f hq => ?_, h.count⟩, h.zero, h.early⟩
      have h0 := hz.2 _ _ _ _ _ hq
      cases h.placed _ _ _ _ _ hq with
      | clear a b c => exact .clear a b c
      | hs a b c d => omega
      | old a b c => omega
      | app a b c d => have := h.app; omega)
    (fun p _ e h => h.q.uniq.filter)

theorem numAt_hs {env : Env} (e : Eng) (a b : Bytes) (h : TxOk (NumAt 0) NumG e) :
    wp (installHandshakeKeys env a b) e (fun _ e => TxOk (NumAt 1) NumG e) (fun _ e => Uniq e.log) := by
  refine wp_installHandshakeKeys (fun suite ks kr _ _ _ => ⟨?_, h.g, h.r⟩) (fun _ _ => h.q.uniq.filter)
    (fun _ _ _ => h.q.uniq.filter)
  obtain ⟨hs0, hz⟩ := h.q.zero rfl
  refine ⟨⟨h.q.prev, h.q.app, h.q.uniq, fun k c ep n f hq => ?_, h.q.count⟩, nofun,
    fun _ => ⟨(h.q.early (by decide)).1, (h.q.early (by decide)).2.1, (h.q.early (by decide)).2.2⟩⟩
  have h0 := hz _ _ _ _ _ hq
  cases h.q.placed _ _ _ _ _ hq with
  | clear a b c => exact .clear a b c
  | hs a b c d => omega
  | old a b c => omega
  | app a b c d => have := h.q.app; omega

theorem numAt_appKeys {env : Env} (e : Eng) (a b : Bytes) (h : TxOk (NumAt 1) NumG e) :
    wp (installApplicationKeys env a b) e (fun _ e => TxOk (NumAt 2) NumG e) (fun _ e => Uniq e.log) := by
  obtain ⟨hs0, h3, hz⟩ := h.q.early (by decide)
  have h3 : e.appEpoch = 3 := h3
  refine wp_installApplicationKeys (fun suite ks kr _ _ _ _ => ⟨?_, ?_, h.r⟩) (fun _ _ => h.q.uniq.filter)
    (fun _ _ _ => h.q.uniq.filter)
  · refine ⟨⟨h.q.prev, Nat.le_refl 3, h.q.uniq, fun k c ep n f hq => ?_, ?_⟩, nofun, nofun⟩
    · have h0 := hz _ _ _ _ _ hq
      cases h.q.placed _ _ _ _ _ hq with
      | clear a b c => exact .clear a b c
      | hs a b c d => exact .hs a b c d
      | old a b c => omega
      | app a b c d => have := h.q.app; omega
    · have := h.q.count
      rw [show e.q.appEpoch = 3 from h3] at this
      exact this
  · have := h.g
    rw [h3] at this
    exact this

theorem NumAt.up {p r : Nat} {q : TxPart} (h : NumAt p q) (h1 : 2 ≤ r) : NumAt r q :=
  ⟨h.toNumOk, fun h => by omega, fun h => by omega⟩

theorem TxOk.imp {Q Q' : TxPart → Prop} {G : Cfg → Nat → UInt8 → Nat → Bytes → Prop} {e : Eng} (h : TxOk Q G e)
    (hq : Q e.q → Q' e.q) : TxOk Q' G e := ⟨hq h.q, h.g, h.r⟩

theorem numAt_enable {env : Env} {p : Nat} (e : Eng) (h : TxOk (NumAt p) NumG e) :
    wp (enablePeerEncryption env) e (fun _ e => TxOk (NumAt p) NumG e) (fun _ e => Uniq e.log) := by
  have := enablePeerEncryption_tx (numAt_inv env p).toTxCore h
  exact wp_of (fun _ _ he => by rw [he] at this; exact this) (fun _ _ he => by rw [he] at this; exact this.q.uniq.filter)

theorem numAt_client (env : Env) : CCare env (fun p e => TxOk (NumAt p) NumG e) (fun _ e => Uniq e.log)
    (fun e => TxOk (NumAt 1) NumG e) where
  toPhases := numAt_phases env
  hs := numAt_hs
  enable := numAt_enable
  weak1 _ h := h.q.uniq.filter
  appKeys := numAt_appKeys
  release _ h := ⟨h.q.up (by decide), h.g, h.r⟩

theorem numAt_server (env : Env) : SCare env (fun p e => TxOk (NumAt p) NumG e) (fun _ e => Uniq e.log)
    (fun e => TxOk (NumAt 2) NumG e) where
  toPhases := numAt_phases env
  hs := numAt_hs
  enable := numAt_enable
  appKeys := numAt_appKeys
  release _ h := ⟨h.q.up (by decide), h.g, h.r⟩

variable {env : PEnv} {cfg : Cfg} {R : Role} {s0 : Ses R.St}

theorem Start.numAt0 (h : Start env cfg R s0) : TxOk (NumAt 0) NumG s0.eng := by
  obtain ⟨n, _, hq⟩ := h.q0
  obtain ⟨g1, g2, _, _⟩ := h.saved0
  refine ⟨?_, ?_, ?_⟩
  · rw [hq]
    exact ⟨⟨rfl, Nat.le_refl 3, ⟨List.nodup_nil, fun _ _ _ _ _ _ _ _ _ h => nomatch h⟩, (fun _ _ _ _ _ h => nomatch h), rfl⟩,
      fun _ => ⟨rfl, fun _ _ _ _ _ h => nomatch h⟩, fun _ => ⟨rfl, rfl, fun _ _ _ _ _ h => nomatch h⟩⟩
  · rw [g1]; exact fun _ he => nomatch he
  · rw [g2]; simp

/-- Numbers are used once throughout. -/
theorem Start.uniq (h : Start env cfg R s0) (cs : List Call) (ha : Careful R env s0 cs) :
    Uniq (run R env s0 cs).2.eng.log :=
  h.care (numAt_client env.toEnv) (numAt_server env.toEnv) (fun _ _ _ h => h) (fun _ _ _ h => h)
    (fun _ _ h => h.q.uniq.filter) (fun _ _ h => h.q.uniq.filter) h.numAt0 h.numAt0 cs ha

end Verif.E13

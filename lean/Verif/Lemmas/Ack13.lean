import Verif.Lemmas.Recv13
import Verif.Lemmas.Parse13
/-!
# What DTLS 1.3 ACKs list, and what makes the send keys rotate

`AckInv b` holds between API calls. With `b` it also says what the saved records are while a KeyUpdate is
in flight.
-/
namespace Verif.E13
open Verif Wire Window Timer Aead M
open Verif.E12 (insertAt Call)

/-- A record of type `t` and content `c` was opened as number `n`. -/
def OpenedAs (log : List Ev) (n : Nat × Nat) (t : UInt8) (c : Bytes) : Prop :=
  ∃ k nonce aad cipher plain, Ev.opened k nonce aad cipher plain n.1 n.2 ∈ log ∧
    recoverInner plain = some (t, c)

/-- The body of an ACK that lists numbers of opened handshake records. -/
def AckOf (log : List Ev) (body : Bytes) : Prop :=
  ∃ l : List (Nat × Nat), l ≠ [] ∧ l.length ≤ 32 ∧ body = ackBody l ∧ ∀ n ∈ l, ∃ c, OpenedAs log n ctHandshake c

/-- A KeyUpdate was queued in epoch `ep` and an opened ACK lists its number. -/
def Confirmed (log : List Ev) (ep : Nat) : Prop :=
  ∃ k n r q, Ev.queued (some k) ctHandshake ep q (keyUpdateMsg n r) ∈ log ∧
    ∃ m body l, OpenedAs log m ctAck body ∧ parseAck body = some l ∧ (ep, q) ∈ l

/-- What is known of an event from those before it. -/
def Sound (b : Bool) : Ev → List Ev → Prop
  | .queued _ c _ _ body, l => c = ctAck → AckOf l body
  | .rotated e, l => b = true → Confirmed l e
  | _, _ => True

def LogOk (b : Bool) : List Ev → Prop
  | [] => True
  | e :: l => Sound b e l ∧ LogOk b l

/-- A received record: not protected, of no interest, or opened. -/
def RecOk (log : List Ev) (r : Rec13) : Prop :=
  r.epoch = 0 ∨ r.ctype = ctAppData ∨ OpenedAs log (r.epoch, r.seq) r.ctype r.fragment

/-- A saved KeyUpdate record. -/
structure KuEntry (log : List Ev) (ep : Nat) (x : Entry) : Prop where
  epoch : x.epoch = ep
  ctype : x.ctype = ctHandshake
  msg : ∃ n r, x.fragment = keyUpdateMsg n r
  acked : x.acked = true → Confirmed log ep
  sent : x.acked = false → ∃ k, Ev.queued (some k) ctHandshake ep x.sendSeq x.fragment ∈ log

/-- A saved record. -/
structure EntryOk (b : Bool) (s : Eng) (x : Entry) : Prop where
  ack : x.ctype = ctAck → AckOf s.log x.fragment
  ku : b = true → s.kuInFlight = true → KuEntry s.log s.appEpoch x

structure AckInv (b : Bool) (s : Eng) : Prop where
  rx : ∀ x ∈ s.rx.flatten, RecOk s.log x.rcd
  noted : ∀ n ∈ s.received, ∃ c, OpenedAs s.log n ctHandshake c
  few : s.received.length ≤ 32
  saved : ∀ x ∈ s.saved, EntryOk b s x
  log : LogOk b s.log
  enc : b = true → s.kuInFlight = true → s.peerEnc = true
  ep : 3 ≤ s.appEpoch

section mono
variable {l l' : List Ev}

theorem OpenedAs.mono {n : Nat × Nat} {t : UInt8} {c : Bytes} (h : OpenedAs l n t c) (g : ∀ e ∈ l, e ∈ l') :
    OpenedAs l' n t c := by
  obtain ⟨k, a, b, d, e, h1, h2⟩ := h
  exact ⟨k, a, b, d, e, g _ h1, h2⟩

theorem AckOf.mono {body : Bytes} (h : AckOf l body) (g : ∀ e ∈ l, e ∈ l') : AckOf l' body := by
  obtain ⟨ns, h0, h1, h2, h3⟩ := h
  refine ⟨ns, h0, h1, h2, fun n hn => ?_⟩
  obtain ⟨c, hc⟩ := h3 n hn
  exact ⟨c, hc.mono g⟩

theorem Confirmed.mono {ep : Nat} (h : Confirmed l ep) (g : ∀ e ∈ l, e ∈ l') : Confirmed l' ep := by
  obtain ⟨k, n, r, q, h1, m, body, ns, h2, h3⟩ := h
  exact ⟨k, n, r, q, g _ h1, m, body, ns, h2.mono g, h3⟩

theorem RecOk.mono {r : Rec13} (h : RecOk l r) (g : ∀ e ∈ l, e ∈ l') : RecOk l' r := by
  rcases h with h | h | h
  · exact .inl h
  · exact .inr (.inl h)
  · exact .inr (.inr (h.mono g))

theorem KuEntry.mono {ep : Nat} {x : Entry} (h : KuEntry l ep x) (g : ∀ e ∈ l, e ∈ l') : KuEntry l' ep x :=
  ⟨h.epoch, h.ctype, h.msg, fun ha => (h.acked ha).mono g,
    fun ha => let ⟨k, hk⟩ := h.sent ha; ⟨k, g _ hk⟩⟩
end mono

/-- What most of the engine keeps. -/
structure Same (b : Bool) (s s' : Eng) : Prop where
  log : ∀ e ∈ s.log, e ∈ s'.log
  ku : b = true → s'.kuInFlight = s.kuInFlight
  ep : s'.appEpoch = s.appEpoch
  enc : s'.peerEnc = s.peerEnc

theorem Same.refl {b : Bool} (s : Eng) : Same b s s := ⟨fun _ h => h, fun _ => rfl, rfl, rfl⟩

theorem Same.trans {b : Bool} {s s' s'' : Eng} (h : Same b s s') (g : Same b s' s'') : Same b s s'' :=
  ⟨fun e he => g.log e (h.log e he), fun hb => (g.ku hb).trans (h.ku hb), g.ep.trans h.ep, g.enc.trans h.enc⟩

theorem EntryOk.same {b : Bool} {s s' : Eng} {x : Entry} (h : EntryOk b s x) (g : Same b s s') : EntryOk b s' x :=
  ⟨fun hc => (h.ack hc).mono g.log, fun hb hk => by
    rw [g.ep]; exact (h.ku hb (by rw [← g.ku hb]; exact hk)).mono g.log⟩

section
variable {env : Env} {b : Bool} {s s' : Eng}

/-- The general step. -/
theorem AckInv.step (h : AckInv b s) (g : Same b s s')
    (h1 : ∀ x ∈ s'.rx.flatten, (∃ y ∈ s.rx.flatten, x.rcd = y.rcd) ∨ RecOk s'.log x.rcd)
    (h2 : ∀ n ∈ s'.received, n ∈ s.received ∨ ∃ c, OpenedAs s'.log n ctHandshake c) (h3 : s'.received.length ≤ 32)
    (h4 : ∀ x ∈ s'.saved, x ∈ s.saved ∨ EntryOk b s' x) (h5 : LogOk b s'.log) : AckInv b s' where
  rx x hx := by
    rcases h1 x hx with ⟨y, hy, e⟩ | h1
    · rw [e]; exact (h.rx y hy).mono g.log
    · exact h1
  noted n hn := by
    rcases h2 n hn with hn | h2
    · obtain ⟨c, hc⟩ := h.noted n hn
      exact ⟨c, hc.mono g.log⟩
    · exact h2
  few := h3
  saved x hx := by
    rcases h4 x hx with hx | h4
    · exact (h.saved x hx).same g
    · exact h4
  log := h5
  enc hb hk := by
    rw [g.enc]
    exact h.enc hb (by rw [← g.ku hb]; exact hk)
  ep := by rw [g.ep]; exact h.ep

/-- Nothing of interest changed. -/
theorem AckInv.same (h : AckInv b s) (h1 : s'.rx = s.rx) (h2 : s'.received = s.received) (h3 : s'.saved = s.saved)
    (h4 : s'.log = s.log) (h5 : s'.kuInFlight = s.kuInFlight) (h6 : s'.appEpoch = s.appEpoch)
    (h7 : s'.peerEnc = s.peerEnc) : AckInv b s' :=
  h.step ⟨fun _ he => by rw [h4]; exact he, fun _ => h5, h6, h7⟩
    (fun x hx => .inl ⟨x, by rw [← h1]; exact hx, rfl⟩) (fun _ hn => .inl (by rw [← h2]; exact hn))
    (by rw [h2]; exact h.few) (fun _ hx => .inl (by rw [← h3]; exact hx)) (by rw [h4]; exact h.log)

theorem AckInv.forget (h : AckInv b s) : AckInv b { s with saved := [] } :=
  h.step ⟨fun _ he => he, fun _ => rfl, rfl, rfl⟩ (fun x hx => .inl ⟨x, hx, rfl⟩) (fun _ hn => .inl hn) h.few
    (fun _ hx => nomatch hx) h.log

/-! ## Sending -/

theorem saved_inv (h : AckInv b s) {sv : Bool} {x : Entry} (hx : sv = true → EntryOk b s x) :
    AckInv b (savedAs s sv x) := by
  refine h.step ⟨fun _ he => he, fun _ => rfl, rfl, rfl⟩ (fun x hx => .inl ⟨x, hx, rfl⟩) (fun _ hn => .inl hn) h.few ?_ h.log
  intro y hy
  unfold savedAs at hy
  cases sv with
  | false => exact .inl hy
  | true =>
    rcases List.mem_append.mp hy with hy | hy
    · exact .inl hy
    · rw [List.mem_singleton.mp hy]
      exact .inr ⟨(hx rfl).ack, (hx rfl).ku⟩

theorem emitPlain_same (s : Eng) (c a f) : (emitPlain s c a f).rx = s.rx ∧ (emitPlain s c a f).received = s.received ∧
    (emitPlain s c a f).saved = s.saved ∧ (emitPlain s c a f).log = .queued none c 0 s.seq0 f :: s.log ∧
    (emitPlain s c a f).kuInFlight = s.kuInFlight ∧ (emitPlain s c a f).appEpoch = s.appEpoch ∧
    (emitPlain s c a f).peerEnc = s.peerEnc := by
  unfold emitPlain pushWire
  split <;> exact ⟨rfl, rfl, rfl, rfl, rfl, rfl, rfl⟩

theorem emitCipher_same (env : Env) (s : Eng) (suite sl k c ep a f ct) :
    (emitCipher env s suite sl k c ep a f ct).rx = s.rx ∧
    (emitCipher env s suite sl k c ep a f ct).received = s.received ∧
    (emitCipher env s suite sl k c ep a f ct).saved = s.saved ∧
    (emitCipher env s suite sl k c ep a f ct).log = .queued (some k) c ep (s.slotSeq sl) f :: s.log ∧
    (emitCipher env s suite sl k c ep a f ct).kuInFlight = s.kuInFlight ∧
    (emitCipher env s suite sl k c ep a f ct).appEpoch = s.appEpoch ∧
    (emitCipher env s suite sl k c ep a f ct).peerEnc = s.peerEnc := by
  obtain ⟨a1, a2, a3, a4, a5, h1⟩ := countSent_eq s sl ep
  unfold emitCipher
  dsimp only
  rw [h1]
  unfold pushWire
  split <;> exact ⟨rfl, rfl, rfl, rfl, rfl, rfl, rfl⟩

theorem createPlain_inv (h : AckInv b s) {c : UInt8} {sv : Bool} {f : Bytes} (hc : c = ctAck → AckOf s.log f)
    (hx : sv = true → EntryOk b s (plainEntry s c f)) :
    AckInv b (createPlain c sv f s).2 ∧ Same b s (createPlain c sv f s).2 ∧
      (createPlain c sv f s).2.saved = (if sv ∧ ¬ s.saved.length ≥ 12 then s.saved ++ [plainEntry s c f] else s.saved) := by
  have h1 := saved_inv h hx
  have hs : (sv = true → s.saved.length < 12) → (savedAs s sv (plainEntry s c f)).saved =
      (if sv ∧ ¬ s.saved.length ≥ 12 then s.saved ++ [plainEntry s c f] else s.saved) := by
    intro hl
    unfold savedAs
    cases sv with
    | false => simp
    | true => have := hl rfl; simp; omega
  refine createPlain_ind (motive := fun r => AckInv b r.2 ∧ Same b s r.2 ∧ r.2.saved = _) c sv f s ?_ ?_ ?_
  · intro h2 h3
    exact ⟨h, .refl s, by rw [if_neg (fun hn => hn.2 h3)]⟩
  · intro _ _ hl
    exact ⟨h1, ⟨fun _ he => he, fun _ => rfl, rfl, rfl⟩, hs hl⟩
  · intro hl _ _
    obtain ⟨e1, e2, e3, e4, e5, e6, e7⟩ := emitPlain_same (savedAs s sv (plainEntry s c f)) c
      (canAppend s (13 + f.length)) f
    have g : Same b (savedAs s sv (plainEntry s c f)) (emitPlain (savedAs s sv (plainEntry s c f)) c
      (canAppend s (13 + f.length)) f) := ⟨fun e he => by rw [e4]; exact List.mem_cons_of_mem _ he, fun _ => e5, e6, e7⟩
    refine ⟨h1.step g (fun x hx => .inl ⟨x, e1 ▸ hx, rfl⟩) (fun n hn => .inl (e2 ▸ hn)) (e2 ▸ h1.few)
      (fun x hx => .inl (e3 ▸ hx)) ?_, ?_, by rw [e3]; exact hs hl⟩
    · rw [e4]
      exact ⟨hc, h1.log⟩
    · exact ⟨g.log, g.ku, g.ep, g.enc⟩

/-- Sending a protected record. -/
theorem createCipher_inv (h : AckInv b s) {c : UInt8} {ep : Nat} {sv : Bool} {f : Bytes}
    (hc : c = ctAck → AckOf s.log f) (hx : sv = true → EntryOk b s (entryOf s c ep f)) :
    wp (createCipher env c ep sv f) s
      (fun _ t => AckInv b t ∧ Same b s t ∧
        (∃ k, Ev.queued (some k) c ep (s.slotSeq (s.slot ep)) f ∈ t.log) ∧
        t.saved = if sv then s.saved ++ [entryOf s c ep f] else s.saved)
      (fun _ t => AckInv b t) := by
  have h1 := saved_inv h hx
  have key : match createCipher env c ep sv f s with
      | (.ok _, t) => AckInv b t ∧ Same b s t ∧ (∃ k, Ev.queued (some k) c ep (s.slotSeq (s.slot ep)) f ∈ t.log) ∧
          t.saved = if sv then s.saved ++ [entryOf s c ep f] else s.saved
      | (.fail _, t) => AckInv b t := by
    have hsl : ∀ k, AckInv b (sealedSt (savedAs s sv (entryOf s c ep f)) k ep) := fun k =>
      h1.step ⟨fun _ he => List.mem_cons_of_mem _ he, fun _ => rfl, rfl, rfl⟩ (fun x hx => .inl ⟨x, hx, rfl⟩)
        (fun _ hn => .inl hn) h1.few (fun _ hx => .inl hx) ⟨trivial, h1.log⟩
    refine createCipher_ind (motive := fun r => match r with
      | (.ok _, t) => AckInv b t ∧ Same b s t ∧ (∃ k, Ev.queued (some k) c ep (s.slotSeq (s.slot ep)) f ∈ t.log) ∧
          t.saved = if sv then s.saved ++ [entryOf s c ep f] else s.saved
      | (.fail _, t) => AckInv b t) env c ep sv f s (fun _ _ => h) (fun _ _ _ => h1) (fun _ _ k _ _ _ _ _ => hsl k) ?_
    intro suite tag k ct _ _ _ _
    have h2 := hsl k
    obtain ⟨e1, e2, e3, e4, e5, e6, e7⟩ := emitCipher_same env (sealedSt (savedAs s sv (entryOf s c ep f)) k ep) suite
      (s.slot ep) k c ep (canAppend s (5 + ct.length)) f ct
    have g : Same b (sealedSt (savedAs s sv (entryOf s c ep f)) k ep) (emitCipher env
      (sealedSt (savedAs s sv (entryOf s c ep f)) k ep) suite (s.slot ep) k c ep (canAppend s (5 + ct.length)) f ct) :=
      ⟨fun e he => by rw [e4]; exact List.mem_cons_of_mem _ he, fun _ => e5, e6, e7⟩
    refine ⟨h2.step g (fun x hx => .inl ⟨x, e1 ▸ hx, rfl⟩) (fun n hn => .inl (e2 ▸ hn)) (e2 ▸ h2.few)
      (fun x hx => .inl (e3 ▸ hx)) ?_, ?_, ⟨k, ?_⟩, e3⟩
    · rw [e4]
      exact ⟨fun h => (hc h).mono fun _ he => List.mem_cons_of_mem _ he, h2.log⟩
    · exact ⟨fun e he => g.log e (List.mem_cons_of_mem _ he), g.ku, g.ep, g.enc⟩
    · rw [e4]; exact List.mem_cons_self
  unfold wp
  revert key
  generalize createCipher env c ep sv f s = r
  obtain ⟨r, t⟩ := r
  cases r <;> exact id

theorem createCipher_inv' (h : AckInv b s) {c : UInt8} {ep : Nat} {f : Bytes}
    (hc : c = ctAck → AckOf s.log f) : AckInv b (createCipher env c ep false f s).2 :=
  of_wp (AckInv b) (wp_mono (createCipher_inv h hc (fun h => nomatch h)) (fun _ _ h => h.1) (fun _ _ h => h))

theorem resendEntry_inv (h : AckInv b s) {x : Entry} (hx : EntryOk b s x) (ha : x.acked = false) :
    wp (resendEntry env x) s (fun y t => AckInv b t ∧ Same b s t ∧ EntryOk b t y) (fun _ t => AckInv b t) := by
  unfold resendEntry
  by_cases h0 : x.epoch = 0
  · have e0 : (fun s => if x.epoch = 0 then
        M.bind (createPlain x.ctype false x.fragment) (fun _ => M.pure { x with sendSeq := s.seq0 }) s
      else M.bind (createCipher env x.ctype x.epoch false x.fragment)
        (fun _ => M.pure { x with sendSeq := s.slotSeq (s.slot x.epoch) }) s : E Entry) =
      fun s => M.bind (createPlain x.ctype false x.fragment) (fun _ => M.pure { x with sendSeq := s.seq0 }) s := by
      funext s; rw [if_pos h0]
    rw [e0]
    show wp (M.bind (createPlain x.ctype false x.fragment) (fun _ => M.pure { x with sendSeq := s.seq0 })) s _ _
    obtain ⟨h1, h2, _⟩ := createPlain_inv h (c := x.ctype) (sv := false) (f := x.fragment) hx.ack (fun h => nomatch h)
    rw [wp_bind]
    refine wp_of ?_ ?_
    · intro a t ht
      rw [ht] at h1 h2
      refine ⟨h1, h2, fun hc => (hx.ack hc).mono h2.log, fun hb hk => ?_⟩
      have := (hx.ku hb (by rw [← h2.ku hb]; exact hk)).epoch
      have h3 := h.ep
      omega
    · intro f t ht
      rw [ht] at h1
      exact h1
  · have e0 : (fun s => if x.epoch = 0 then
        M.bind (createPlain x.ctype false x.fragment) (fun _ => M.pure { x with sendSeq := s.seq0 }) s
      else M.bind (createCipher env x.ctype x.epoch false x.fragment)
        (fun _ => M.pure { x with sendSeq := s.slotSeq (s.slot x.epoch) }) s : E Entry) =
      fun s => M.bind (createCipher env x.ctype x.epoch false x.fragment)
        (fun _ => M.pure { x with sendSeq := s.slotSeq (s.slot x.epoch) }) s := by
      funext s; rw [if_neg h0]
    rw [e0]
    show wp (M.bind (createCipher env x.ctype x.epoch false x.fragment)
      (fun _ => M.pure { x with sendSeq := s.slotSeq (s.slot x.epoch) })) s _ _
    rw [wp_bind]
    refine wp_mono (createCipher_inv h (sv := false) hx.ack (fun h => nomatch h)) ?_ (fun _ _ h => h)
    rintro _ t ⟨h1, h2, ⟨k, hk⟩, _⟩
    refine ⟨h1, h2, fun hc => (hx.ack hc).mono h2.log, fun hb hku => ?_⟩
    have hx' := hx.ku hb (by rw [← h2.ku hb]; exact hku)
    rw [hx'.ctype, hx'.epoch] at hk
    rw [h2.ep]
    refine ⟨hx'.epoch, hx'.ctype, hx'.msg, fun hc => absurd (ha.symm.trans hc) (by decide), fun _ => ⟨k, ?_⟩⟩
    rw [hx'.epoch]
    exact hk

theorem resendLoop_inv (l : List Entry) (h : AckInv b s) (hl : ∀ x ∈ l, EntryOk b s x) :
    wp (resendLoop env l) s (fun es t => AckInv b t ∧ Same b s t ∧ ∀ x ∈ es, EntryOk b t x) (fun _ t => AckInv b t) := by
  induction l generalizing s with
  | nil => exact ⟨h, .refl s, fun _ hx => nomatch hx⟩
  | cons x rest ih =>
    unfold resendLoop
    split
    · rw [wp_bind]
      refine wp_mono (ih h fun y hy => hl y (List.mem_cons_of_mem _ hy)) ?_ (fun _ _ h => h)
      rintro es t ⟨h1, h2, h3⟩
      refine ⟨h1, h2, ?_⟩
      intro y hy
      rcases List.mem_cons.mp hy with rfl | hy
      · exact (hl _ List.mem_cons_self).same h2
      · exact h3 y hy
    · rename_i hn
      rw [wp_bind]
      refine wp_mono (resendEntry_inv h (hl x List.mem_cons_self) (by simpa using hn)) ?_ (fun _ _ h => h)
      rintro y u ⟨h1, h2, h3⟩
      rw [wp_bind]
      refine wp_mono (ih h1 fun z hz => (hl z (List.mem_cons_of_mem _ hz)).same h2) ?_ (fun _ _ h => h)
      rintro es t ⟨g1, g2, g3⟩
      refine ⟨g1, h2.trans g2, ?_⟩
      intro z hz
      rcases List.mem_cons.mp hz with rfl | hz
      · exact h3.same g2
      · exact g3 z hz

theorem flightResend_wp (h : AckInv b s) :
    wp (flightResend env) s (fun _ t => AckInv b t ∧ Same b s t) (fun _ t => AckInv b t) := by
  have h0 : AckInv b { s with saved := [], sealedDg := true } := h.forget.same rfl rfl rfl rfl rfl rfl rfl
  show wp (M.bind (resendLoop env s.saved) fun es => M.modify fun t => { t with saved := es })
    { s with saved := [], sealedDg := true } _ _
  rw [wp_bind]
  refine wp_mono (resendLoop_inv s.saved h0 fun x hx => ⟨(h.saved x hx).ack, (h.saved x hx).ku⟩) ?_ (fun _ _ h => h)
  rintro es t ⟨h1, h2, h3⟩
  refine ⟨h1.step ⟨fun _ he => he, fun _ => rfl, rfl, rfl⟩ (fun x hx => .inl ⟨x, hx, rfl⟩) (fun _ hn => .inl hn) h1.few
    (fun x hx => .inr ⟨(h3 x hx).ack, (h3 x hx).ku⟩) h1.log, ?_⟩
  exact ⟨h2.log, h2.ku, h2.ep, h2.enc⟩

theorem flightResend_inv (h : AckInv b s) : AckInv b (flightResend env s).2 :=
  of_wp (AckInv b) (wp_mono (flightResend_wp h) (fun _ _ h => h.1) (fun _ _ h => h))

/-- No KeyUpdate of interest in flight. -/
def Free (b : Bool) (s : Eng) : Prop := b = true → s.kuInFlight = false

theorem Free.entry (h : Free b s) {x : Entry} (hc : x.ctype = ctAck → AckOf s.log x.fragment) : EntryOk b s x :=
  ⟨hc, fun hb hk => absurd ((h hb).symm.trans hk) (by decide)⟩

theorem createHsRecord_inv (h : AckInv b s) (hf : Free b s) (ep f) :
    AckInv b (createHsRecord env ep f s).2 := by
  have hn : ctHandshake = ctAck → AckOf s.log f := fun hc => absurd hc (by decide)
  unfold createHsRecord
  split
  · exact (createPlain_inv h hn fun _ => hf.entry hn).1
  · exact of_wp (AckInv b) (wp_mono (createCipher_inv h hn fun _ => hf.entry hn) (fun _ _ h => h.1) (fun _ _ h => h))

theorem createHsRecord_ku (ep f) (s : Eng) : (createHsRecord env ep f s).2.kuInFlight = s.kuInFlight := by
  unfold createHsRecord
  split
  · refine createPlain_ind (motive := fun r => r.2.kuInFlight = s.kuInFlight) _ _ f s (fun _ _ => rfl) (fun _ _ _ => rfl) ?_
    intro _ _ _
    exact (emitPlain_same _ _ _ _).2.2.2.2.1
  · obtain ⟨_, _, _, _, _, _, _, _, _, h⟩ := createCipher_shape env ctHandshake ep true f s
    rw [h]

theorem fragmentLoop_inv (t : UInt8) (seq ep fixed : Nat) (body : Bytes) (n off : Nat) (h : AckInv b s)
    (hf : Free b s) : AckInv b (fragmentLoop env t seq ep fixed body n off s).2 ∧
      Free b (fragmentLoop env t seq ep fixed body n off s).2 := by
  induction n generalizing s off with
  | zero => exact ⟨h, hf⟩
  | succ n ih =>
    unfold fragmentLoop
    split
    · have key : ∀ u : Eng, AckInv b u → Free b u → AckInv b
          ((if body.length = 0 then M.pure () else fragmentLoop env t seq ep fixed body n
            (off + chunkLen s fixed body.length off) : E Unit) u).2 ∧ Free b
          ((if body.length = 0 then M.pure () else fragmentLoop env t seq ep fixed body n
            (off + chunkLen s fixed body.length off) : E Unit) u).2 := by
        intro u hu hus
        split
        · exact ⟨hu, hus⟩
        · exact ih _ hu hus
      refine of_wp (fun u => AckInv b u ∧ Free b u) ?_
      rw [wp_bind, wp_get]
      dsimp only
      rw [wp_bind]
      have h1 := createHsRecord_inv (env := env) h hf ep (fragmentBytes t seq body off (chunkLen s fixed body.length off))
      have h2 := createHsRecord_ku (env := env) ep (fragmentBytes t seq body off (chunkLen s fixed body.length off)) s
      refine wp_of ?_ ?_
      · intro a u hu
        rw [hu] at h1 h2
        exact to_wp (R := fun u => AckInv b u ∧ Free b u) (key u h1 (fun hb => h2.trans (hf hb)))
      · intro a u hu
        rw [hu] at h1 h2
        exact ⟨h1, fun hb => h2.trans (hf hb)⟩
    · exact ⟨h, hf⟩

/-- With no KeyUpdate in flight. -/
def Calm (b : Bool) (s : Eng) : Prop := AckInv b s ∧ Free b s

theorem Calm.same (h : Calm b s) (h1 : s'.rx = s.rx) (h2 : s'.received = s.received) (h3 : s'.saved = s.saved)
    (h4 : s'.log = s.log) (h5 : s'.kuInFlight = s.kuInFlight) (h6 : s'.appEpoch = s.appEpoch)
    (h7 : s'.peerEnc = s.peerEnc) : Calm b s' :=
  ⟨h.1.same h1 h2 h3 h4 h5 h6 h7, fun hb => h5.trans (h.2 hb)⟩

theorem createHandshake_inv (h : Calm b s) (t body) : Calm b (createHandshake env t body s).2 := by
  unfold createHandshake
  dsimp only
  split
  · exact h.same rfl rfl rfl rfl rfl rfl rfl
  · split
    · exact h.same rfl rfl rfl rfl rfl rfl rfl
    · have h1 : Calm b { s with
          transcript := s.transcript ++ transcriptOf t body.length body, nextSeq := s.nextSeq + 1 } :=
        h.same rfl rfl rfl rfl rfl rfl rfl
      exact fragmentLoop_inv _ _ _ _ _ _ _ h1.1 h1.2

/-! ## Sending ACKs -/

theorem sendAckInner_inv (h : AckInv b s) {sv : Bool} (hf : sv = true → Free b s) :
    AckInv b (sendAckInner env sv s).2 := by
  unfold sendAckInner
  split
  · exact h
  · rename_i hne
    have h1 : AckInv b { s with received := [] } :=
      h.step ⟨fun _ he => he, fun _ => rfl, rfl, rfl⟩ (fun x hx => .inl ⟨x, hx, rfl⟩) (fun _ hn => nomatch hn) (by simp)
        (fun _ hx => .inl hx) h.log
    have ha : AckOf s.log (ackBody s.received) := ⟨s.received, by simpa using hne, h.few, rfl, h.noted⟩
    exact of_wp (AckInv b) (wp_mono (createCipher_inv h1 (fun _ => ha) fun hsv =>
      ⟨fun _ => ha, fun hb hk => absurd ((hf hsv hb).symm.trans hk) (by decide)⟩) (fun _ _ h => h.1) (fun _ _ h => h))

theorem sendAckInner_ku (sv) (s : Eng) : (sendAckInner env sv s).2.kuInFlight = s.kuInFlight := by
  unfold sendAckInner
  split
  · rfl
  · obtain ⟨_, _, _, _, _, _, _, _, _, h⟩ := createCipher_shape env ctAck (if s.appSend.isSome then s.appEpoch else 2) sv
      (ackBody s.received) { s with received := [] }
    rw [h]

theorem sendAckRetransmittable_inv (h : Calm b s) : Calm b (sendAckRetransmittable env s).2 := by
  unfold sendAckRetransmittable
  split
  · exact ⟨sendAckInner_inv h.1 fun _ => h.2, fun hb => (sendAckInner_ku ..).trans (h.2 hb)⟩
  · exact ⟨sendAckInner_inv h.1.forget fun _ => h.2, fun hb => (sendAckInner_ku ..).trans (h.2 hb)⟩

theorem bufferedNumbers_inv (h : AckInv b s) : (bufferedNumbers s).length ≤ 32 ∧
    ∀ n ∈ bufferedNumbers s, ∃ c, OpenedAs s.log n ctHandshake c := by
  unfold bufferedNumbers
  refine ⟨by simp; omega, ?_⟩
  intro n hn
  obtain ⟨x, hx, rfl⟩ := List.mem_map.mp (List.mem_of_mem_take hn)
  rw [List.mem_filter] at hx
  obtain ⟨hx, he⟩ := hx
  have he : x.rcd.epoch = 2 ∧ x.rcd.ctype = ctHandshake := of_decide_eq_true he
  rcases h.rx x hx with h0 | h0 | h0
  · omega
  · rw [he.2] at h0; exact absurd h0 (by decide)
  · rw [he.2] at h0; exact ⟨_, h0⟩

theorem flushAck_inv (h : AckInv b s) (now) : AckInv b (flushAck env now s).2 := by
  unfold flushAck
  split
  · exact h
  · split
    · exact h
    · dsimp only
      have h1 : AckInv b { s with ackDeadline := none } := h.same rfl rfl rfl rfl rfl rfl rfl
      split
      · exact h1
      · rename_i hne
        split
        · exact h1
        · obtain ⟨g1, g2⟩ := bufferedNumbers_inv h
          exact createCipher_inv' h1 fun _ => ⟨_, by simpa using hne, g1, rfl, g2⟩

/-! ## KeyUpdates and processing ACKs -/

theorem createCipher_facts (c : UInt8) (ep : Nat) (sv : Bool) (f : Bytes) (s : Eng) :
    wp (createCipher env c ep sv f) s
      (fun _ t => t.rx = s.rx ∧ t.received = s.received ∧
        t.saved = (if sv then s.saved ++ [entryOf s c ep f] else s.saved) ∧
        (∃ k e, t.log = .queued (some k) c ep (s.slotSeq (s.slot ep)) f :: e :: s.log ∧ ∀ b l, Sound b e l) ∧
        t.appEpoch = s.appEpoch ∧ t.peerEnc = s.peerEnc ∧ t.kuInFlight = s.kuInFlight)
      (fun flt _ => flt ≠ .transient) := by
  have key : match createCipher env c ep sv f s with
      | (.ok _, t) => t.rx = s.rx ∧ t.received = s.received ∧
        t.saved = (if sv then s.saved ++ [entryOf s c ep f] else s.saved) ∧
        (∃ k e, t.log = .queued (some k) c ep (s.slotSeq (s.slot ep)) f :: e :: s.log ∧ ∀ b l, Sound b e l) ∧
        t.appEpoch = s.appEpoch ∧ t.peerEnc = s.peerEnc ∧ t.kuInFlight = s.kuInFlight
      | (.fail flt, _) => flt ≠ .transient := by
    refine createCipher_ind (motive := fun r => match r with
      | (.ok _, t) => t.rx = s.rx ∧ t.received = s.received ∧
        t.saved = (if sv then s.saved ++ [entryOf s c ep f] else s.saved) ∧
        (∃ k e, t.log = .queued (some k) c ep (s.slotSeq (s.slot ep)) f :: e :: s.log ∧ ∀ b l, Sound b e l) ∧
        t.appEpoch = s.appEpoch ∧ t.peerEnc = s.peerEnc ∧ t.kuInFlight = s.kuInFlight
      | (.fail flt, _) => flt ≠ .transient) env c ep sv f s ?_ ?_ ?_ ?_
    · intro _ _; exact nofun
    · rintro flt (rfl | rfl) _ <;> nofun
    · rintro _ _ _ _ flt _ _ (rfl | rfl) <;> nofun
    · intro suite tag k ct _ _ _ _
      obtain ⟨e1, e2, e3, e4, e5, e6, e7⟩ := emitCipher_same env (sealedSt (savedAs s sv (entryOf s c ep f)) k ep) suite
        (s.slot ep) k c ep (canAppend s (5 + ct.length)) f ct
      exact ⟨e1, e2, e3, ⟨k, _, e4, fun _ _ => trivial⟩, e6, e7, e5⟩
  unfold wp
  revert key
  generalize createCipher env c ep sv f s = r
  obtain ⟨r, t⟩ := r
  cases r <;> exact id

theorem AckInv.weaken (h : AckInv b s) : AckInv false s := by
  refine ⟨h.rx, h.noted, h.few, fun x hx => ⟨(h.saved x hx).ack, nofun⟩, ?_, nofun, h.ep⟩
  have key : ∀ l, LogOk b l → LogOk false l := by
    intro l
    induction l with
    | nil => exact fun h => h
    | cons e l ih =>
      rintro ⟨h1, h2⟩
      refine ⟨?_, ih h2⟩
      cases e <;> first | exact h1 | exact fun hf => nomatch hf
  exact key _ h.log

theorem createKeyUpdate_inv (h : AckInv b s) (hp : b = true → s.peerEnc = true) (r) :
    wp (createKeyUpdate env r) s (fun _ t => AckInv b t ∧ t.peerEnc = s.peerEnc)
      (fun f t => AckInv false t ∧ f ≠ .transient) := by
  have h0 : AckInv b (flightBegin env s) := h.forget.same rfl rfl rfl rfl rfl rfl rfl
  have hs : (flightBegin env s).saved = [] := rfl
  have hp0 : (flightBegin env s).peerEnc = s.peerEnc := rfl
  unfold createKeyUpdate
  rw [wp_bind, wp_modify, wp_bind, wp_get]
  generalize flightBegin env s = u at h0 hs hp0
  split
  · exact ⟨h0.weaken, nofun⟩
  · rw [wp_bind, wp_modify, wp_bind]
    have weak : AckInv false { u with nextSeq := u.nextSeq + 1 } := h0.weaken.same rfl rfl rfl rfl rfl rfl rfl
    have hc := createCipher_inv (env := env) weak (c := ctHandshake) (ep := u.appEpoch) (sv := true)
      (f := keyUpdateMsg u.nextSeq r) (fun hc => absurd hc (by decide))
      (fun _ => ⟨fun hc => absurd (show ctHandshake = ctAck from hc) (by decide), fun hb => nomatch hb⟩)
    refine wp_mono (wp_and hc (createCipher_facts ctHandshake u.appEpoch true (keyUpdateMsg u.nextSeq r)
      { u with nextSeq := u.nextSeq + 1 })) ?_ (fun _ _ h => ⟨h.1, h.2⟩)
    rintro _ t ⟨⟨g, _⟩, -, -, e3, ⟨k, e, e4, he⟩, e6, e7, -⟩
    rw [wp_modify]
    have e3 : t.saved = [entryOf { u with nextSeq := u.nextSeq + 1 } ctHandshake u.appEpoch (keyUpdateMsg u.nextSeq r)] := by
      rw [e3, if_pos rfl, show ({ u with nextSeq := u.nextSeq + 1 } : Eng).saved = [] from hs]; rfl
    refine ⟨⟨fun x hx => (g.rx x hx).mono fun _ he => List.mem_cons_of_mem _ he,
      fun n hn => let ⟨c, hc⟩ := g.noted n hn; ⟨c, hc.mono fun _ he => List.mem_cons_of_mem _ he⟩,
      g.few, ?_, ?_, fun hb _ => e7.trans (hp0.trans (hp hb)), g.ep⟩, e7.trans hp0⟩
    · intro x hx
      rw [show ({ t with kuInFlight := true, log := .keyUpdate u.appEpoch r :: t.log } : Eng).saved = _ from e3] at hx
      rw [List.mem_singleton.mp hx]
      refine ⟨fun hc => absurd (show ctHandshake = ctAck from hc) (by decide), fun _ _ => ?_⟩
      refine ⟨e6.symm, rfl, ⟨_, _, rfl⟩, fun hc => absurd hc (by simp [entryOf]), fun _ => ⟨k, ?_⟩⟩
      refine List.mem_cons_of_mem _ ?_
      show _ ∈ t.log
      rw [e4]
      rw [show ({ t with kuInFlight := true, log := .keyUpdate u.appEpoch r :: t.log } : Eng).appEpoch = _ from e6]
      exact List.mem_cons_self
    · show LogOk b (_ :: t.log)
      rw [e4]
      exact ⟨trivial, fun hc => absurd hc (by decide), he _ _, h0.log⟩

theorem updateSendKeys_facts (s : Eng) : wp (updateSendKeys env) s
    (fun _ t => t.rx = s.rx ∧ t.received = s.received ∧ t.log = .rotated s.appEpoch :: s.log ∧
      t.appEpoch = s.appEpoch + 1)
    (fun _ t => t = { s with appSend := none } ∨ t = s) := by
  refine wp_updateSendKeys (fun _ => .inr rfl) (fun _ _ => .inl rfl) ?_
  intros
  exact ⟨rfl, rfl, rfl, rfl⟩

theorem processAck_inv (h : AckInv b s) {d : Bytes}
    (hd : b = true → s.kuInFlight = true → ∃ m, OpenedAs s.log m ctAck d) :
    AckInv b (processAck env d s).2 ∧ ∀ e ∈ s.log, e ∈ (processAck env d s).2.log := by
  unfold processAck
  split
  · exact ⟨h, fun _ he => he⟩
  · rename_i numbers hn
    -- marking
    have h1 : AckInv b { s with saved := s.saved.map (markAcked numbers) } := by
      refine h.step ⟨fun _ he => he, fun _ => rfl, rfl, rfl⟩ (fun x hx => .inl ⟨x, hx, rfl⟩) (fun _ hn => .inl hn)
        h.few ?_ h.log
      intro x hx
      obtain ⟨y, hy, rfl⟩ := List.mem_map.mp hx
      have hk := h.saved y hy
      unfold markAcked
      split
      · rename_i ha
        refine .inr ⟨hk.ack, fun hb hku => ?_⟩
        have hk := hk.ku hb hku
        refine ⟨hk.epoch, hk.ctype, hk.msg, fun _ => ?_, fun h => nomatch h⟩
        cases hya : y.acked with
        | true => exact hk.acked hya
        | false =>
          obtain ⟨k, hq⟩ := hk.sent hya
          obtain ⟨n, r, hm⟩ := hk.msg
          obtain ⟨m, ho⟩ := hd hb hku
          rw [hm] at hq
          refine ⟨k, n, r, y.sendSeq, hq, m, d, numbers, ho, hn, ?_⟩
          rw [List.any_eq_true] at ha
          obtain ⟨w, hw, hw2⟩ := ha
          simp only [Bool.and_eq_true, beq_iff_eq] at hw2
          have : (s.appEpoch, y.sendSeq) = w := by
            rw [← hk.epoch, hw2.1, hw2.2]
          rw [this]; exact hw
      · exact .inl hy
    have hl : ∀ e ∈ s.log, e ∈ ({ s with saved := s.saved.map (markAcked numbers) } : Eng).log := fun _ he => he
    revert h1 hl
    generalize ({ s with saved := s.saved.map (markAcked numbers) } : Eng) = u
    intro h1 hl
    -- the handshake flight
    have h2 : AckInv b (ackHandshakeFlight u) ∧ (ackHandshakeFlight u).log = u.log := by
      unfold ackHandshakeFlight
      split
      · exact ⟨h1.forget.same rfl rfl rfl rfl rfl rfl rfl, rfl⟩
      · exact ⟨h1, rfl⟩
    obtain ⟨h2, h3⟩ := h2
    rw [← h3] at hl
    clear h3
    generalize ackHandshakeFlight u = v at h2 hl
    -- the KeyUpdate
    unfold ackKeyUpdate
    split
    · rename_i hc
      simp only [Bool.and_eq_true, Bool.not_eq_true'] at hc
      obtain ⟨⟨hku, hne⟩, hall⟩ := hc
      refine of_wp (fun t => AckInv b t ∧ ∀ e ∈ s.log, e ∈ t.log) ?_
      rw [wp_bind]
      refine wp_mono (updateSendKeys_facts v) ?_ ?_
      · rintro _ t ⟨e1, e2, e3, e4⟩
        rw [wp_modify]
        refine ⟨⟨?_, ?_, ?_, (fun _ hx => nomatch hx), ?_, (fun _ h => nomatch h), ?_⟩, ?_⟩
        · show ∀ x ∈ t.rx.flatten, RecOk t.log x.rcd
          rw [e1, e3]
          exact fun x hx => (h2.rx x hx).mono fun _ he => List.mem_cons_of_mem _ he
        · show ∀ x ∈ t.received, ∃ c, OpenedAs t.log x ctHandshake c
          rw [e2, e3]
          intro n hn
          obtain ⟨c, hc⟩ := h2.noted n hn
          exact ⟨c, hc.mono fun _ he => List.mem_cons_of_mem _ he⟩
        · show t.received.length ≤ 32
          rw [e2]; exact h2.few
        · show LogOk b t.log
          rw [e3]
          refine ⟨fun hb => ?_, h2.log⟩
          cases hs : v.saved with
          | nil => rw [hs] at hne; cases hne
          | cons x l =>
            have hx : x ∈ v.saved := by rw [hs]; exact List.mem_cons_self
            exact ((h2.saved x hx).ku hb hku).acked (List.all_eq_true.mp hall x hx)
        · show 3 ≤ t.appEpoch
          rw [e4]; have := h2.ep; omega
        · show ∀ e ∈ s.log, e ∈ t.log
          rw [e3]
          exact fun e he => List.mem_cons_of_mem _ (hl e he)
      · rintro _ t (rfl | rfl)
        · exact ⟨h2.same rfl rfl rfl rfl rfl rfl rfl, hl⟩
        · exact ⟨h2, hl⟩
    · exact ⟨h2, hl⟩

/-! ## Receiving -/

theorem recordParse_inv (h : AckInv b s) (sl : Bytes) :
    AckInv b (recordParse env sl s).2 ∧ (∀ e ∈ s.log, e ∈ (recordParse env sl s).2.log) ∧
      ∀ x, (recordParse env sl s).1 = .ok (some x) → RecOk (recordParse env sl s).2.log x.rcd := by
  have hk : ∀ k a c p ep n, AckInv b (noteOpened s k a c p ep n) := by
    intro k a c p ep n
    have e : (s.replayUpdate ep n).rx = s.rx ∧ (s.replayUpdate ep n).received = s.received ∧
        (s.replayUpdate ep n).saved = s.saved ∧ (s.replayUpdate ep n).kuInFlight = s.kuInFlight ∧
        (s.replayUpdate ep n).appEpoch = s.appEpoch ∧ (s.replayUpdate ep n).peerEnc = s.peerEnc := by
      unfold Eng.replayUpdate
      split <;> exact ⟨rfl, rfl, rfl, rfl, rfl, rfl⟩
    obtain ⟨e1, e2, e3, e4, e5, e6⟩ := e
    refine h.step ⟨fun _ he => List.mem_cons_of_mem _ he, fun _ => e4, e5, e6⟩ (fun x hx => .inl ⟨x, ?_, rfl⟩)
      (fun n hn => .inl ?_) ?_ (fun x hx => .inl ?_) ⟨trivial, h.log⟩
    · exact e1 ▸ hx
    · exact e2 ▸ hn
    · show (s.replayUpdate ep n).received.length ≤ 32
      rw [e2]; exact h.few
    · exact e3 ▸ hx
  unfold recordParse
  dsimp only
  split
  · exact ⟨h, fun _ he => he, nofun⟩
  · rename_i buffer _
    split
    · rename_i rest r hp
      split
      · unfold openRecord
        dsimp only
        split
        · exact ⟨h, fun _ he => he, nofun⟩
        · split
          · exact ⟨h, fun _ he => he, nofun⟩
          · split
            · exact ⟨h, fun _ he => he, nofun⟩
            · split
              · exact ⟨h, fun _ he => he, nofun⟩
              · split
                · exact ⟨h, fun _ he => he, nofun⟩
                · split
                  · exact ⟨hk .., fun _ he => List.mem_cons_of_mem _ he, nofun⟩
                  · rename_i hr
                    refine ⟨hk .., fun _ he => List.mem_cons_of_mem _ he, ?_⟩
                    intro x hx
                    cases hx
                    exact .inr (.inr ⟨_, _, _, _, _, List.mem_cons_self, hr⟩)
      · refine ⟨h, fun _ he => he, ?_⟩
        intro x hx
        cases hx
        obtain ⟨_, ⟨ver, _, hct, he, _, _, hb⟩ | ⟨fl, hf, _, hct, _, hb, hl, _⟩⟩ := Props.Wire.parse13_exact buffer rest r hp
        · exact .inl he
        · exact .inr (.inl hct)
    · exact ⟨h, fun _ he => he, nofun⟩
    · exact ⟨h, fun _ he => he, nofun⟩

/-- Records in hand. -/
def Good (s : Eng) (l : List Rx) : Prop := ∀ x ∈ l, RecOk s.log x.rcd

theorem Good.mono {l : List Rx} (h : Good s l) (g : ∀ e ∈ s.log, e ∈ s'.log) : Good s' l :=
  fun x hx => (h x hx).mono g

theorem parseSlices_inv (l : List Bytes) (e : SplitEnd) (acc : List Rx) (h : AckInv b s) (ha : Good s acc) :
    wp (parseSlices env l e acc) s (fun rs t => AckInv b t ∧ Good t rs) (fun _ t => AckInv b t) := by
  induction l generalizing s acc with
  | nil => cases e <;> first | exact h | exact ⟨h, ha⟩
  | cons x l ih =>
    unfold parseSlices
    rw [wp_bind]
    obtain ⟨h1, h2, h3⟩ := recordParse_inv (env := env) h x
    refine wp_of ?_ (fun _ t ht => by rw [ht] at h1; exact h1)
    intro o t ht
    rw [ht] at h1 h2 h3
    split
    · exact ih _ h1 (ha.mono h2)
    · rename_i rx
      split
      · exact h1
      · refine ih _ h1 ?_
        intro y hy
        rcases List.mem_append.mp hy with hy | hy
        · exact ha.mono h2 y hy
        · rw [List.mem_singleton.mp hy]; exact h3 _ rfl

theorem classify_inv (h : AckInv b s) {r : Rx} (hr : RecOk s.log r.rcd) :
    wp (classify env r) s (fun o t => AckInv b t ∧ (∀ x, o = some x → x = r) ∧ ∀ e ∈ s.log, e ∈ t.log)
      (fun _ t => AckInv b t) := by
  unfold classify wp
  dsimp only
  by_cases hc : afterClose s r = true
  · rw [if_pos hc]; exact ⟨h, nofun, fun _ he => he⟩
  · rw [if_neg hc]
    by_cases h0 : r.rcd.epoch = 0 ∧ s.peerEnc = true ∧ (r.rcd.ctype = ctAck ∨ r.rcd.ctype = ctAlert)
    · rw [if_pos h0]; exact ⟨h, nofun, fun _ he => he⟩
    · rw [if_neg h0]
      by_cases ha : r.rcd.ctype = ctAck
      · rw [if_pos ha]
        obtain ⟨g1, g2⟩ := processAck_inv (env := env) h (d := r.rcd.fragment) (by
          intro hb hk
          rcases hr with hr | hr | hr
          · exact absurd ⟨hr, h.enc hb hk, .inl ha⟩ h0
          · rw [ha] at hr; exact absurd hr (by decide)
          · rw [ha] at hr; exact ⟨_, hr⟩)
        show wp (M.bind (processAck env r.rcd.fragment) fun _ => M.pure none) s _ _
        rw [wp_bind]
        refine wp_of ?_ ?_
        · intro _ t ht
          rw [ht] at g1 g2
          exact ⟨g1, nofun, g2⟩
        · intro _ t ht
          rw [ht] at g1
          exact g1
      · rw [if_neg ha]
        by_cases hl : r.rcd.ctype = ctAlert
        · rw [if_pos hl]
          cases hd : r.rcd.fragment[1]? with
          | none => simp only [classifyAlert, hd]; exact ⟨h, nofun, fun _ he => he⟩
          | some d =>
            simp only [classifyAlert, hd]
            by_cases h1 : d = 0
            · rw [if_pos h1]
              exact ⟨h.same rfl rfl rfl rfl rfl rfl rfl, nofun, fun _ he => he⟩
            · rw [if_neg h1]
              by_cases h2 : d = 90
              · rw [if_pos h2]; exact ⟨h, nofun, fun _ he => he⟩
              · rw [if_neg h2]; exact h
        · rw [if_neg hl]
          by_cases hcc : r.rcd.ctype = ctCCS
          · rw [if_pos hcc]; exact ⟨h, nofun, fun _ he => he⟩
          · rw [if_neg hcc]
            exact ⟨h, fun x hx => by cases hx; rfl, fun _ he => he⟩

theorem classifyAll_inv (l acc : List Rx) (h : AckInv b s) (hl : Good s l) (ha : Good s acc) :
    wp (classifyAll env l acc) s (fun rs t => AckInv b t ∧ Good t rs) (fun _ t => AckInv b t) := by
  induction l generalizing s acc with
  | nil => exact ⟨h, ha⟩
  | cons x l ih =>
    unfold classifyAll
    rw [wp_bind]
    refine wp_mono (classify_inv h (hl x List.mem_cons_self)) ?_ (fun _ _ h => h)
    rintro o t ⟨h1, h3, h2⟩
    have hl' : Good t l := fun y hy => (hl y (List.mem_cons_of_mem _ hy)).mono h2
    split
    · rename_i r
      refine ih _ h1 hl' ?_
      intro y hy
      rcases List.mem_append.mp hy with hy | hy
      · exact ha.mono h2 y hy
      · rw [List.mem_singleton.mp hy, h3 _ rfl]; exact (hl x List.mem_cons_self).mono h2
    · exact ih _ h1 hl' (ha.mono h2)

theorem noteReceived_inv (h : AckInv b s) {rs : List Rx} (hr : Good s rs) :
    (noteReceived s.received rs).length ≤ 32 ∧
    ∀ n ∈ noteReceived s.received rs, ∃ c, OpenedAs s.log n ctHandshake c := by
  unfold noteReceived
  refine ⟨by simp; omega, ?_⟩
  intro n hn
  rcases List.mem_append.mp (List.mem_of_mem_take hn) with hn | hn
  · exact h.noted n hn
  · obtain ⟨x, hx, rfl⟩ := List.mem_map.mp hn
    rw [List.mem_filter] at hx
    obtain ⟨hx, he⟩ := hx
    have he : x.rcd.epoch ≥ 2 ∧ x.rcd.ctype = ctHandshake := of_decide_eq_true he
    rcases hr x hx with h0 | h0 | h0
    · omega
    · rw [he.2] at h0; exact absurd h0 (by decide)
    · rw [he.2] at h0; exact ⟨_, h0⟩

/-- A new receive queue and list of numbers. -/
theorem AckInv.queue (h : AckInv b s) {rx : List (List Rx)} {l : List (Nat × Nat)} {t : Nat}
    (h1 : ∀ x ∈ rx.flatten, (∃ y ∈ s.rx.flatten, x.rcd = y.rcd) ∨ RecOk s.log x.rcd)
    (h2 : l.length ≤ 32 ∧ ∀ n ∈ l, ∃ c, OpenedAs s.log n ctHandshake c) :
    AckInv b { s with rx := rx, received := l, tick := t } :=
  h.step ⟨fun _ he => he, fun _ => rfl, rfl, rfl⟩ h1 (fun n hn => .inr (h2.2 n hn)) h2.1 (fun _ hx => .inl hx) h.log

theorem insertAt_rx {l : List (List Rx)} {i : Nat} {rs : List Rx} {x : Rx} (h : x ∈ (insertAt l i rs).flatten) :
    x ∈ l.flatten ∨ x ∈ rs := by
  have := (insertAt_flatten_perm l i rs).mem_iff.mp h
  rcases List.mem_append.mp this with h | h <;> simp [h]

theorem set_rx {l : List (List Rx)} {i : Nat} {rs : List Rx} {x : Rx} (h : x ∈ (l.set i rs).flatten) :
    x ∈ l.flatten ∨ x ∈ rs := by
  obtain ⟨y, hy, hx⟩ := List.mem_flatten.mp h
  rcases List.mem_or_eq_of_mem_set hy with hy | rfl
  · exact .inl (List.mem_flatten.mpr ⟨y, hy, hx⟩)
  · exact .inr hx

theorem insertHs_inv (h : AckInv b s) {rs : List Rx} (hr : Good s rs) : AckInv b (insertHs env rs s).2 := by
  have ht : AckInv b { s with tick := s.tick + 1 } := h.same rfl rfl rfl rfl rfl rfl rfl
  have hn := noteReceived_inv h hr
  unfold insertHs
  dsimp only
  split
  · refine h.queue ?_ hn
    intro x hx
    rcases insertAt_rx hx with hx | hx
    · exact .inl ⟨x, hx, rfl⟩
    · exact .inr (hr x hx)
  · split
    · exact ht
    · split
      · refine h.queue ?_ hn
        intro x hx
        rcases set_rx hx with hx | hx
        · exact .inl ⟨x, hx, rfl⟩
        · exact .inr (hr x hx)
      · exact ht

theorem insertBySeq_inv (h : AckInv b s) {rs : List Rx} (hr : Good s rs) : AckInv b (insertBySeq env rs s).2 := by
  have ht : AckInv b { s with tick := s.tick + 1 } := h.same rfl rfl rfl rfl rfl rfl rfl
  unfold insertBySeq
  dsimp only
  split
  · refine h.queue (l := s.received) ?_ ⟨h.few, h.noted⟩
    intro x hx
    rcases insertAt_rx hx with hx | hx
    · exact .inl ⟨x, hx, rfl⟩
    · exact .inr (hr x hx)
  · exact ht

theorem insertIncoming_inv (h : AckInv b s) {rs : List Rx} (hr : Good s rs) :
    AckInv b (insertIncoming env rs s).2 := by
  unfold insertIncoming
  split
  · exact h
  · split
    · exact h
    · rename_i r rs'
      split
      · refine of_wp (AckInv b) (m := M.bind _ _) ?_
        rw [wp_bind]
        have h1 : wp (maybeResend env (r :: rs')) s (fun _ t => AckInv b t ∧ ∀ e ∈ s.log, e ∈ t.log)
            (fun _ t => AckInv b t) := by
          have e0 : wp (M.pure ()) s (fun _ t => AckInv b t ∧ ∀ e ∈ s.log, e ∈ t.log) (fun _ t => AckInv b t) :=
            ⟨h, fun _ he => he⟩
          cases hq : (r :: rs').findSome? Rx.firstDupe with
          | none =>
            have : maybeResend env (r :: rs') s = M.pure () s := by simp only [maybeResend, hq]; rfl
            unfold wp at e0 ⊢
            rw [this]; exact e0
          | some d =>
            by_cases hd : d < s.peerSeq
            · have : maybeResend env (r :: rs') s = flightResend env s := by simp only [maybeResend, hq, if_pos hd]
              have e1 : wp (flightResend env) s (fun _ t => AckInv b t ∧ ∀ e ∈ s.log, e ∈ t.log) (fun _ t => AckInv b t) :=
                wp_mono (flightResend_wp h) (fun _ _ h => ⟨h.1, h.2.log⟩) (fun _ _ h => h)
              unfold wp at e1 ⊢
              rw [this]; exact e1
            · have : maybeResend env (r :: rs') s = M.pure () s := by simp only [maybeResend, hq, if_neg hd]; rfl
              unfold wp at e0 ⊢
              rw [this]; exact e0
        refine wp_mono h1 ?_ (fun _ _ h => h)
        rintro _ t ⟨h1, h2⟩
        refine to_wp (R := AckInv b) ?_
        unfold insertHandshakeTail
        split
        · exact h1
        · split
          · exact h1
          · exact insertHs_inv h1 (hr.mono h2)
      · exact insertBySeq_inv h hr

theorem parsePacket_inv (h : AckInv b s) (p : Bytes) : AckInv b (parsePacket env p s).2 := by
  refine of_wp (AckInv b) ?_
  unfold parsePacket recordsParse
  rw [wp_bind, wp_bind]
  refine wp_mono (parseSlices_inv _ _ _ h (fun _ hx => nomatch hx)) ?_ (fun _ _ h => h)
  rintro rs t ⟨h1, h2⟩
  refine wp_mono (classifyAll_inv rs [] h1 h2 (fun _ hx => nomatch hx)) ?_ (fun _ _ h => h)
  rintro rs t ⟨h1, h2⟩
  split
  · exact h1
  · exact to_wp (R := AckInv b) (insertIncoming_inv h1 h2)

theorem reparse_inv (l : List Bytes) (h : AckInv b s) : AckInv b (reparse env l s).2 := by
  induction l generalizing s with
  | nil => exact h
  | cons p l ih =>
    unfold reparse
    rw [bind_snd]
    split
    · exact ih (parsePacket_inv h p)
    · exact parsePacket_inv h p

theorem enablePeerEncryption_inv (h : AckInv b s) : AckInv b (enablePeerEncryption env s).2 := by
  have h1 : AckInv b { s with peerEnc := true } :=
    ⟨h.rx, h.noted, h.few, fun x hx => ⟨(h.saved x hx).ack, (h.saved x hx).ku⟩, h.log, fun _ _ => rfl, h.ep⟩
  unfold enablePeerEncryption
  dsimp only
  split
  · exact h1
  · rename_i i _
    refine reparse_inv _ (h1.queue (rx := s.rx.take i) (l := s.received) (t := s.tick) ?_ ⟨h.few, h.noted⟩)
    exact fun x hx => .inl ⟨x, (flatten_sublist (List.take_sublist i s.rx)).subset hx, rfl⟩

theorem AckInv.fewer (h : AckInv b s) {rx : List (List Rx)} (hf : Fewer s.rx.flatten rx.flatten) :
    AckInv b { s with rx := rx } := by
  refine h.queue (l := s.received) (t := s.tick) (fun x hx => .inl ?_) ⟨h.few, h.noted⟩
  obtain ⟨y, hy, m⟩ := hf.mem hx
  exact ⟨y, hy, m.rcd⟩

/-- One more event of no interest. -/
theorem AckInv.event (h : AckInv b s) {e : Ev} (he : ∀ l, Sound b e l) : AckInv b { s with log := e :: s.log } :=
  h.step ⟨fun _ he => List.mem_cons_of_mem _ he, fun _ => rfl, rfl, rfl⟩ (fun x hx => .inl ⟨x, hx, rfl⟩)
    (fun _ hn => .inl hn) h.few (fun _ hx => .inl hx) ⟨he _, h.log⟩

theorem nextHandshakeWith_inv (h : AckInv b s) (a i t) : AckInv b (nextHandshakeWith env a i t s).2 := by
  unfold nextHandshakeWith
  split
  · exact h
  · split
    · exact h
    · unfold defragment
      dsimp only
      have hm : ∀ n, AckInv b { s with rx := markQueue false n s.rx } := fun n => h.fewer (markQueue_fewer ..)
      split
      · exact h
      · split
        · exact h
        · split
          · exact hm _
          · split
            · exact hm _
            · exact ((hm _).event (e := .taken _ _ _) (fun _ => trivial)).same rfl rfl rfl rfl rfl rfl rfl

theorem advance_inv (h : AckInv b s) : AckInv b (advancePeerSeq s).2 := by
  unfold advancePeerSeq
  split
  · exact h
  · exact (h.event (e := .accepted s.peerSeq) (fun _ => trivial)).same rfl rfl rfl rfl rfl rfl rfl

theorem scheduleAck_inv (h : AckInv b s) (now) : AckInv b (scheduleAck now s) := by
  unfold scheduleAck
  split
  · exact h.same rfl rfl rfl rfl rfl rfl rfl
  · split
    · exact h
    · split
      · exact h
      · exact h.same rfl rfl rfl rfl rfl rfl rfl

theorem handleTimeout_inv (h : AckInv b s) (now) : AckInv b (handleTimeout env now s).2 := by
  have h1 : AckInv b { s with
      timers := (s.timers.handle s.cfg.handshakeTimeout now (env.jitter s.tick)).1, tick := s.tick + 1 } :=
    h.same rfl rfl rfl rfl rfl rfl rfl
  unfold handleTimeout
  dsimp only
  split
  · exact h1
  · exact h1
  · exact h1
  · exact flushAck_inv (scheduleAck_inv h1 _) _
  · rw [bind_snd]
    split
    · exact flushAck_inv (scheduleAck_inv (flightResend_inv h1) _) _
    · exact flightResend_inv h1

theorem pollOutput_inv (h : AckInv b s) (n now) : AckInv b (pollOutput n now s).2 := by
  have h1 : AckInv b (purge s) :=
    h.fewer (.of_sublist (flatten_sublist (List.dropWhile_sublist _)))
  have h2 : ∀ u : Eng, AckInv b u → AckInv b (pollRest n now u).2 := by
    intro u hu
    unfold pollRest
    dsimp only
    have h3 := scheduleAck_inv hu now
    split
    · split
      · exact h3
      · exact (h3.event (e := .sent _) (fun _ => trivial)).same rfl rfl rfl rfl rfl rfl rfl
    · split
      · exact h3.same rfl rfl rfl rfl rfl rfl rfl
      · exact h3
  unfold pollOutput
  dsimp only
  split
  · split
    · rename_i r hr
      split
      · exact h1
      · obtain ⟨a, c, g1, g2, g3, g4, g5⟩ := nextApp_split hr
        have : Fewer (purge s).rx.flatten (markApp (purge s).rx).flatten := by
          rw [g1, g2]
          exact (Fewer.refl a).append (.keep (mark_handled r) (.refl c))
        exact ((h1.fewer this).event (e := .delivered r.rcd r.opened) (fun _ => trivial)).same rfl rfl rfl rfl rfl rfl rfl
    · exact h2 _ h1
  · exact h2 _ h1

/-! ## A KeyUpdate gets in flight only by sending one -/

theorem createCipher_ku (c ep sv f) (s : Eng) : (createCipher env c ep sv f s).2.kuInFlight = s.kuInFlight := by
  obtain ⟨_, _, _, _, _, _, _, _, _, h⟩ := createCipher_shape env c ep sv f s
  rw [h]

theorem createPlain_ku (c sv f) (s : Eng) : (createPlain c sv f s).2.kuInFlight = s.kuInFlight := by
  refine createPlain_ind (motive := fun r => r.2.kuInFlight = s.kuInFlight) c sv f s (fun _ _ => rfl) (fun _ _ _ => rfl) ?_
  intro _ _ _
  exact (emitPlain_same _ _ _ _).2.2.2.2.1

theorem resendLoop_ku (l : List Entry) (s : Eng) : (resendLoop env l s).2.kuInFlight = s.kuInFlight := by
  have he : ∀ x (s : Eng), (resendEntry env x s).2.kuInFlight = s.kuInFlight := by
    intro x s
    unfold resendEntry
    split
    · rw [bind_snd]; split <;> exact createPlain_ku ..
    · rw [bind_snd]; split <;> exact createCipher_ku ..
  induction l generalizing s with
  | nil => rfl
  | cons x l ih =>
    unfold resendLoop
    split
    · rw [bind_snd]; split <;> exact ih s
    · rw [bind_snd]
      split
      · rw [bind_snd]; split <;> exact (ih _).trans (he x s)
      · exact he x s

theorem flightResend_ku (s : Eng) : (flightResend env s).2.kuInFlight = s.kuInFlight := by
  unfold flightResend
  rw [bind_snd]
  split <;> exact resendLoop_ku ..

theorem processAck_ku (d) (s : Eng) : (processAck env d s).2.kuInFlight = true → s.kuInFlight = true := by
  unfold processAck
  split
  · exact id
  · rename_i ns _
    have h1 : (ackHandshakeFlight { s with saved := s.saved.map (markAcked ns) }).kuInFlight = s.kuInFlight := by
      unfold ackHandshakeFlight
      split <;> rfl
    generalize ackHandshakeFlight { s with saved := s.saved.map (markAcked ns) } = u at h1 ⊢
    rw [← h1]
    unfold ackKeyUpdate
    split
    · rename_i hc
      intro _
      simp only [Bool.and_eq_true] at hc
      exact hc.1.1
    · exact id

theorem low_pframe (env : Env) : PFrame env (fun s t => t.kuInFlight = true → s.kuInFlight = true) where
  refl _ h := h
  trans _ _ _ h g k := h (g k)
  resend e h := by rw [← flightResend_ku (env := env)]; exact h
  ack e d := processAck_ku d e
  opened e k a c p ep n h := by
    have : (e.replayUpdate ep n).kuInFlight = e.kuInFlight := by unfold Eng.replayUpdate; split <;> rfl
    exact this ▸ h
  close _ _ h := h
  queue _ _ _ _ h := h

theorem Free.low (h : Free b s) (g : s'.kuInFlight = true → s.kuInFlight = true) : Free b s' := by
  intro hb
  cases hk : s'.kuInFlight with
  | false => rfl
  | true => rw [h hb] at g; exact absurd (g hk) (by decide)

theorem reparse_low (l : List Bytes) {s : Eng} : (reparse env l s).2.kuInFlight = true → s.kuInFlight = true := by
  induction l generalizing s with
  | nil => exact id
  | cons p l ih =>
    unfold reparse
    rw [bind_snd]
    have h := (low_pframe env).parsePacket p s
    split
    · exact fun k => h (ih k)
    · exact h

theorem enablePeerEncryption_low (s : Eng) :
    (enablePeerEncryption env s).2.kuInFlight = true → s.kuInFlight = true := by
  unfold enablePeerEncryption
  dsimp only
  split
  · exact id
  · rename_i i _
    exact fun h => reparse_low (s := { s with peerEnc := true, rx := s.rx.take i }) _ h

theorem scheduleAck_ku (now) (s : Eng) : (scheduleAck now s).kuInFlight = s.kuInFlight := by
  unfold scheduleAck
  split
  · rfl
  · split
    · rfl
    · split <;> rfl

theorem flushAck_ku (now) (s : Eng) : (flushAck env now s).2.kuInFlight = s.kuInFlight := by
  unfold flushAck
  split
  · rfl
  · split
    · rfl
    · dsimp only
      split
      · rfl
      · split
        · rfl
        · exact createCipher_ku ..

theorem handleTimeout_ku (now) (s : Eng) : (handleTimeout env now s).2.kuInFlight = s.kuInFlight := by
  unfold handleTimeout
  dsimp only
  split
  · rfl
  · rfl
  · rfl
  · exact (flushAck_ku ..).trans (scheduleAck_ku ..)
  · rw [bind_snd]
    split
    · exact ((flushAck_ku ..).trans (scheduleAck_ku ..)).trans (flightResend_ku ..)
    · exact flightResend_ku ..

theorem pollOutput_ku (n now) (s : Eng) : (pollOutput n now s).2.kuInFlight = s.kuInFlight := by
  have h2 : ∀ u : Eng, (pollRest n now u).2.kuInFlight = u.kuInFlight := by
    intro u
    unfold pollRest
    dsimp only
    split
    · split <;> exact scheduleAck_ku ..
    · split <;> exact scheduleAck_ku ..
  unfold pollOutput
  dsimp only
  split
  · split
    · split <;> rfl
    · exact h2 _
  · exact h2 _

theorem nextHandshakeWith_ku (a i t) (s : Eng) : (nextHandshakeWith env a i t s).2.kuInFlight = s.kuInFlight := by
  unfold nextHandshakeWith
  split
  · rfl
  · split
    · rfl
    · unfold defragment
      dsimp only
      split
      · rfl
      · split
        · rfl
        · split
          · rfl
          · split <;> rfl

/-! ## Frames -/

theorem calm_frame (env : Env) (b : Bool) : Frame env (Keeps (Calm b)) where
  refl _ h := h
  trans _ _ _ h g k := g (h k)
  handshake _ t body h := createHandshake_inv h t body
  next e a i t h := ⟨nextHandshakeWith_inv h.1 a i t, h.2.low (by rw [nextHandshakeWith_ku]; exact id)⟩
  advance e h := ⟨advance_inv h.1, by
    unfold advancePeerSeq
    split <;> exact h.2⟩
  flightBegin e h := ⟨h.1.forget.same rfl rfl rfl rfl rfl rfl rfl, h.2⟩
  flightStop _ e h := h.same rfl rfl rfl rfl rfl rfl rfl
  tick e h := h.same rfl rfl rfl rfl rfl rfl rfl
  suite e _ _ h := h.same rfl rfl rfl rfl rfl rfl rfl
  exporter e _ h := h.same rfl rfl rfl rfl rfl rfl rfl
  rollback e _ h := h.same rfl rfl rfl rfl rfl rfl rfl
  replace e n h := by
    unfold replaceTranscript
    split
    · exact h
    · split
      · exact h
      · exact h.same rfl rfl rfl rfl rfl rfl rfl
  ackFinal e h := sendAckRetransmittable_inv h

theorem calm_keyFrame (env : Env) (b : Bool) : KeyFrame env (Keeps (Calm b)) where
  hsKeys e x y h := of_wp (Calm b) (wp_installHandshakeKeys (fun _ _ _ _ _ _ => h.same rfl rfl rfl rfl rfl rfl rfl)
    (fun _ _ => h) (fun _ _ _ => h.same rfl rfl rfl rfl rfl rfl rfl))
  appKeys e x y h := of_wp (Calm b) (wp_installApplicationKeys
    (fun _ _ _ _ _ _ _ => ⟨⟨h.1.rx, h.1.noted, h.1.few, fun x hx => ⟨(h.1.saved x hx).ack,
      fun hb hk => absurd ((h.2 hb).symm.trans hk) (by decide)⟩, h.1.log, h.1.enc,
      Nat.le_refl 3⟩, h.2⟩)
    (fun _ _ => h) (fun _ _ _ => h.same rfl rfl rfl rfl rfl rfl rfl))
  enablePeer e h := ⟨enablePeerEncryption_inv h.1, h.2.low (enablePeerEncryption_low e)⟩
  retry e h := by
    refine ⟨(h.1.fewer (.of_sublist (flatten_sublist (List.filter_sublist (l := e.rx)
      (p := fun i => !((i.head?.map (·.isHandled)).getD false)))))).same rfl rfl rfl rfl rfl rfl rfl, h.2⟩
  release e h := h.same rfl rfl rfl rfl rfl rfl rfl
  retain e h := h.same rfl rfl rfl rfl rfl rfl rfl

theorem ack_api (env : Env) (b : Bool) : ApiFrame env (Keeps (AckInv b)) where
  packet e p h := parsePacket_inv h p
  timeout e n h := handleTimeout_inv h n
  alert e h := createCipher_inv' h fun hc => absurd hc (by decide)
  cancel e h := h.forget.same rfl rfl rfl rfl rfl rfl rfl
  abort e h := h.forget.same rfl rfl rfl rfl rfl rfl rfl

theorem calm_api (env : Env) (b : Bool) : ApiFrame env (Keeps (Calm b)) where
  packet e p h := ⟨parsePacket_inv h.1 p, h.2.low ((low_pframe env).parsePacket p e)⟩
  timeout e n h := ⟨handleTimeout_inv h.1 n, h.2.low (by rw [handleTimeout_ku]; exact id)⟩
  alert e h := ⟨createCipher_inv' h.1 fun hc => absurd hc (by decide), h.2.low (by rw [createCipher_ku]; exact id)⟩
  cancel e h := ⟨h.1.forget.same rfl rfl rfl rfl rfl rfl rfl, h.2⟩
  abort e h := ⟨h.1.forget.same rfl rfl rfl rfl rfl rfl rfl, h.2⟩

theorem updateRecvKeys_inv (h : AckInv b s) : AckInv b (updateRecvKeys env s).2 := by
  unfold updateRecvKeys
  split
  · exact h
  · rename_i latest _
    refine of_wp (AckInv b) (m := M.bind _ _) ?_
    rw [wp_bind]
    refine wp_deriveNextSecret (fun suite x _ _ => ?_) h h
    split
    · exact h
    · rw [wp_bind]
      refine wp_deriveEpochKeys (fun suite k _ _ => ?_) h h
      rw [wp_modify]
      exact h.same rfl rfl rfl rfl rfl rfl rfl

theorem calm_false (h : AckInv false s) : Calm false s := ⟨h, nofun⟩

/-- For any execution. -/
theorem ack_app (env : Env) : AppFrame env (fun _ => True) (Keeps (Calm false)) where
  data e d _ h := calm_false (createCipher_inv' h.1 fun hc => absurd hc (by decide))
  asked e h := h.same rfl rfl rfl rfl rfl rfl rfl
  keyUpdate e h := calm_false (of_wp (AckInv false) (wp_mono (createKeyUpdate_inv h.1 nofun _) (fun _ _ h => h.1)
    (fun _ _ h => h.1)))
  auto e _ _ h := by
    have h : Calm false { e with needsKu := false } := h.same rfl rfl rfl rfl rfl rfl rfl
    exact calm_false (of_wp (AckInv false) (wp_mono (createKeyUpdate_inv h.1 nofun _) (fun _ _ h => h.1)
      (fun _ _ h => h.1)))
  newRecv e h := calm_false (updateRecvKeys_inv h.1)
  ack e h := calm_false (sendAckInner_inv h.1 nofun)

theorem ackInv_new (b : Bool) (cfg : Cfg) (c : Bool) : AckInv b (Eng.new env cfg c) :=
  ⟨nofun, nofun, by simp [Eng.new], nofun, trivial, nofun, by simp [Eng.new]⟩

end

/-! ## Sessions -/

section sessions
variable {env : PEnv} {cfg : Cfg} {R : Role} {s0 : Ses R.St}

theorem Start.ack0 (h : Start env cfg R s0) (b : Bool) : AckInv b s0.eng := by
  cases h with
  | client now => exact ackInv_new b cfg true
  | hybrid random transcript kx now => exact (ackInv_new (env := env.toEnv) b cfg true).same rfl rfl rfl rfl rfl rfl rfl
  | server now auto => exact ackInv_new b cfg false

/-- For any execution. -/
theorem Start.ackInv (h : Start env cfg R s0) (cs : List Call) : AckInv false (run R env s0 cs).2.eng := by
  obtain ⟨k, ho⟩ := h.roleOk
  exact ((run_afr ho (calm_frame env.toEnv false) (calm_keyFrame env.toEnv false) (ack_app env.toEnv)
    (calm_api env.toEnv false) (fun e b n h => calm_false (pollOutput_inv h.1 b n)) cs (fun _ _ => trivial) s0
    (by intro x _; trivial)).1 (calm_false (h.ack0 false))).1

/-- `AckInv true` with the peer's encryption on. -/
def Busy (e : Eng) : Prop := AckInv true e ∧ e.peerEnc = true

theorem onEng_busy {St : Type} {α : Type} {m : E α} {s : Ses St} (h : AckInv true (m s.eng).2) :
    wp (onEng m : P St α) s (fun _ s' => AckInv true s'.eng) (fun _ s' => AckInv true s'.eng) := by
  rw [wp_onEng]
  exact to_wp (R := AckInv true) h

theorem keyUpdate_busy {St : Type} {s : Ses St} (h : Busy s.eng) (r : Bool) :
    wp (onEng (createKeyUpdate env.toEnv r) : P St Unit) s (fun _ s' => Busy s'.eng) (fun f _ => f ≠ .transient) := by
  rw [wp_onEng]
  exact wp_mono (createKeyUpdate_inv h.1 (fun _ => h.2) r) (fun _ _ g => ⟨g.1, g.2.trans h.2⟩) (fun _ _ g => g.2)

theorem drainLoop_busy {St : Type} (ep : Nat) (l : List Bytes) (s : Ses St) (h : Busy s.eng) :
    wp (drainLoop env ep l : P St Unit) s (fun _ s' => Busy s'.eng) (fun _ s' => AckInv true s'.eng) := by
  induction l generalizing s with
  | nil => exact h
  | cons d l ih =>
    unfold drainLoop sendApp
    simp only [bind_eq]
    rw [wp_bind, wp_onEng]
    refine wp_mono (createCipher_inv h.1 (sv := false) (fun hc => absurd hc (by decide)) nofun) ?_ (fun _ _ h => h)
    rintro _ e ⟨h1, h2, _⟩
    exact ih { s with eng := e } ⟨h1, h2.enc.trans h.2⟩

theorem takeKeyUpdate_busy {St : Type} (s : Ses St) (h : AckInv true s.eng) :
    wp (takeKeyUpdate env : P St Unit) s (fun _ s' => AckInv true s'.eng) (fun _ s' => AckInv true s'.eng) := by
  unfold takeKeyUpdate
  simp only [bind_eq, pure_eq]
  rw [wp_bind, wp_get]
  split
  · rw [wp_bind]
    refine wp_mono (onEng_busy (nextHandshakeWith_inv h _ _ _)) ?_ (fun _ _ h => h)
    intro m s1 h1
    split
    · exact h1
    · rw [wp_bind]
      refine wp_mono (onEng_busy (updateRecvKeys_inv h1)) ?_ (fun _ _ h => h)
      intro _ s2 h2
      rw [wp_bind]
      refine wp_mono (onEng_busy (sendAckInner_inv h2 nofun)) ?_ (fun _ _ h => h)
      intro _ s3 h3
      rw [wp_bind, wp_modify]
      exact onEng_busy (advance_inv h3)
    · exact h1
  · exact h

theorem app_busy {St : Type} (self : St) (s : Ses St) (h : Busy s.eng) :
    wp (awaitApplicationData env self) s (fun _ s' => AckInv true s'.eng)
      (fun f s' => f = .transient → AckInv true s'.eng) := by
  unfold awaitApplicationData
  simp only [bind_eq, pure_eq]
  have auto : wp (autoKeyUpdate env : P St Unit) s (fun _ s' => Busy s'.eng) (fun f _ => f ≠ .transient) := by
    unfold autoKeyUpdate
    simp only [bind_eq, pure_eq]
    rw [wp_bind, wp_get]
    split
    · rw [wp_bind, wp_onEng']
      have h1 : Busy { s.eng with needsKu := false } := ⟨h.1.same rfl rfl rfl rfl rfl rfl rfl, h.2⟩
      split
      · exact h1
      · exact keyUpdate_busy (s := { s with eng := { s.eng with needsKu := false } }) h1 true
    · exact h
  rw [wp_bind]
  refine wp_mono auto ?_ (fun _ _ h e => absurd e h)
  intro _ s1 h1
  rw [wp_bind]
  have dr : wp (drainQueued env : P St Unit) s1 (fun _ s' => Busy s'.eng) (fun _ s' => AckInv true s'.eng) := by
    unfold drainQueued
    simp only [bind_eq]
    rw [wp_bind, wp_get, wp_bind, wp_set]
    exact drainLoop_busy _ _ _ h1
  refine wp_mono dr ?_ (fun _ _ h _ => h)
  intro _ s2 h2
  rw [wp_bind]
  have re : wp (respondKeyUpdate env : P St Unit) s2 (fun _ s' => AckInv true s'.eng) (fun f _ => f ≠ .transient) := by
    unfold respondKeyUpdate
    simp only [bind_eq, pure_eq]
    rw [wp_bind, wp_get]
    split
    · rw [wp_bind]
      refine wp_mono (keyUpdate_busy h2 false) ?_ (fun _ _ h => h)
      intro _ s3 h3
      rw [wp_modify]
      exact h3.1
    · exact h2.1
  refine wp_mono re ?_ (fun _ _ h e => absurd e h)
  intro _ s3 h3
  rw [wp_bind]
  exact wp_mono (takeKeyUpdate_busy s3 h3) (fun _ _ h => h) (fun _ _ h _ => h)

theorem half_busy {St : Type} (self closed : St) (s : Ses St) (h : AckInv true s.eng) :
    wp (halfClosedLocal env self closed) s (fun _ s' => AckInv true s'.eng) (fun _ s' => AckInv true s'.eng) := by
  unfold halfClosedLocal
  simp only [bind_eq, pure_eq]
  rw [wp_bind, wp_get]
  split
  · rw [wp_bind]
    refine wp_mono (onEng_busy (nextHandshakeWith_inv h _ _ _)) ?_ (fun _ _ h => h)
    intro m s1 h1
    split
    · exact h1
    · rw [wp_bind]
      refine wp_mono (onEng_busy (updateRecvKeys_inv h1)) ?_ (fun _ _ h => h)
      intro _ s2 h2
      rw [wp_bind]
      exact wp_mono (onEng_busy (advance_inv h2)) (fun _ _ h => h) (fun _ _ h => h)
    · exact h1
  · exact h

/-- The invariant by states: up to the end of the handshake no KeyUpdate is in flight. -/
def Acks (n : Nat) (p : Nat) (e : Eng) : Prop :=
  At (fun p e => RelInv n p e .idle) p e ∧ AckInv true e ∧ (p < 3 → Free true e)

theorem stepOk_ack {ph : R.St → Nat} {keying : R.St → Bool} {n : Nat} {J : R.St → Eng → Prop}
    (ho : RoleOk R env keying) (ha : ph R.app = 3) (hh : ph R.halfClosed = 3) (hc : ph R.closed = 4)
    (h3 : ∀ st, st ≠ R.app → st ≠ R.halfClosed → st ≠ R.closed → ph st < 3) (hn : n ≤ 3)
    (hs : StepOk R env (fun st => At (fun p e => RelInv n p e .idle) (ph st)) J) :
    StepOk R env (fun st => Acks n (ph st)) (fun _ _ => True) where
  weak _ _ _ := trivial
  step s h := by
    obtain ⟨h1, h2, hf⟩ := h
    have hr := hs.step s h1
    have late : ∀ m : P R.St R.St, R.step env s.st = m → Gives (fun new => 3 ≤ ph new) m →
        wp m s (fun _ s' => AckInv true s'.eng) (fun f s' => f = .transient → AckInv true s'.eng) → 3 ≤ ph s.st →
        wp (R.step env s.st) s (fun new s' => Acks n (ph new) s'.eng)
          (fun f s' => s'.st = s.st ∧ True ∧ (f = .transient → Acks n (ph s.st) s'.eng)) := by
      intro m hm hg hw h3
      rw [← hm] at hg hw
      have hg' : wp (R.step env s.st) s (fun new _ => 3 ≤ ph new) (fun _ _ => True) :=
        wp_of (fun a _ he => hg s a (by rw [he])) (fun _ _ _ => trivial)
      refine wp_mono (wp_and hr (wp_and hw hg')) ?_ ?_
      · rintro new s' ⟨g1, g2, g3⟩
        exact ⟨g1, g2, fun hp => by omega⟩
      · rintro f s' ⟨⟨g0, _, g1⟩, g2, _⟩
        exact ⟨g0, trivial, fun e => ⟨g1 e, g2 e, fun hp => by omega⟩⟩
    by_cases c1 : s.st = R.app
    · have hp : s.eng.peerEnc = true := by
        rw [c1, ha] at h1
        exact h1.2.1 hn
      refine late _ (by rw [c1, ho.app]) ?_ (app_busy (env := env) R.app s ⟨h2, hp⟩) (by rw [c1, ha]; omega)
      exact .bind fun _ => .bind fun _ => .bind fun _ => .bind fun _ => .pure (by rw [ha]; omega)
    · by_cases c2 : s.st = R.halfClosed
      · refine late _ (by rw [c2, ho.half]) ?_
          (wp_mono (half_busy R.halfClosed R.closed s h2) (fun _ _ h => h) (fun _ _ h _ => h)) (by rw [c2, hh]; omega)
        have last : Gives (fun new => 3 ≤ ph new) (M.bind M.get fun s =>
            M.pure (if s.eng.closeSeq.isSome then R.closed else R.halfClosed) : P R.St R.St) := by
          refine .bind fun s => .pure ?_
          split
          · rw [hc]; omega
          · rw [hh]; omega
        unfold halfClosedLocal
        simp only [bind_eq, pure_eq]
        refine .bind fun s => ?_
        split
        · refine .bind fun m => ?_
          split
          · exact last
          · exact .bind fun _ => .bind fun _ => last
          · exact .bind fun _ => last
        · exact last
      · by_cases c3 : s.st = R.closed
        · refine late _ (by rw [c3, ho.closed]) (.pure (by rw [hc]; omega)) h2 (by rw [c3, hc]; omega)
        · have hf := hf (h3 s.st c1 c2 c3)
          have hk := (ho.fr (calm_frame env.toEnv true) s.st c1 c2 fun _ => calm_keyFrame env.toEnv true).wp
            (s := s) ⟨h2, hf⟩
          refine wp_mono (wp_and hr hk) ?_ ?_
          · rintro new s' ⟨g1, g2, _⟩
            exact ⟨g1, g2.1, fun _ => g2.2⟩
          · rintro f s' ⟨⟨g0, _, g1⟩, g2, _⟩
            exact ⟨g0, trivial, fun e => ⟨g1 e, g2.1, fun _ => g2.2⟩⟩
  keep := hs.keep
  packet st e p h := ⟨hs.packet st e p h.1, parsePacket_inv h.2.1 p,
    fun hp => (h.2.2 hp).low ((low_pframe env.toEnv).parsePacket p e)⟩
  timeout st e n h := ⟨hs.timeout st e n h.1, handleTimeout_inv h.2.1 n,
    fun hp => (h.2.2 hp).low (by rw [handleTimeout_ku]; exact id)⟩
  tick st e h := ⟨hs.tick st e h.1, h.2.1.same rfl rfl rfl rfl rfl rfl rfl, h.2.2⟩
  data e d h := ⟨hs.data e d h.1, createCipher_inv' h.2.1 fun hc => absurd hc (by decide),
    fun hp => by rw [ha] at hp; omega⟩
  alert e h := by
    refine wp_mono (wp_and (hs.alert e h.1) (to_wp (m := createCipher env.toEnv ctAlert e.appEpoch false [1, 0])
      (R := AckInv true) (createCipher_inv' h.2.1 fun hc => absurd hc (by decide)))) ?_ ?_
    · rintro _ e' ⟨g1, g2⟩
      exact ⟨g1, (ack_api env.toEnv true).cancel _ g2, fun hp => by rw [hh] at hp; omega⟩
    · rintro _ e' ⟨g1, g2⟩
      exact ⟨g1, g2, fun hp => by rw [ha] at hp; omega⟩
  abort st e h := ⟨hs.abort st e h.1, (ack_api env.toEnv true).abort _ h.2.1, fun hp => by rw [hc] at hp; omega⟩
  poll st e b n h := ⟨hs.poll st e b n h.1, pollOutput_inv h.2.1 b n,
    fun hp => (h.2.2 hp).low (by rw [pollOutput_ku]; exact id)⟩

/-- No datagram and no timeout failed. -/
def Smooth (R : Role) (env : PEnv) (s : Ses R.St) : List Call → Prop
  | [] => True
  | c :: cs => ((∃ p, c = .packet p) ∨ (∃ n, c = .timeout n) → (call R env s c).1 = .res .ok) ∧
    Smooth R env (call R env s c).2 cs

theorem call_smooth {I : R.St → Eng → Prop} (h : StepOk R env I (fun _ _ => True)) (s : Ses R.St) (hs : I s.st s.eng)
    (c : Call) (hc : (∃ p, c = .packet p) ∨ (∃ n, c = .timeout n) → (call R env s c).1 = .res .ok) :
    I (call R env s c).2.st (call R env s c).2.eng := by
  have hw : ∀ {α : Type} (m : P R.St α), wp m s (fun _ s' => I s'.st s'.eng) (fun _ s' => I s'.st s'.eng) →
      I (m s).2.st (m s).2.eng := fun m hm => of_wp (fun s : Ses R.St => I s.st s.eng) hm
  cases c with
  | packet p =>
    rcases call_phase h s hs (.packet p) with g | g
    · exact g
    · exact absurd (hc (.inl ⟨p, rfl⟩)) g.2.1
  | timeout n =>
    rcases call_phase h s hs (.timeout n) with g | g
    · exact g
    · exact absurd (hc (.inr ⟨n, rfl⟩)) g.2.1
  | send d =>
    refine hw (sendM R env d) ?_
    unfold sendM
    simp only [bind_eq]
    rw [wp_bind, wp_get]
    split
    · exact hs
    · split
      · exact hs
      · rename_i ha
        have ha : s.st = R.app := Decidable.not_not.mp ha
        unfold sendApp
        rw [wp_onEng]
        have := h.data s.eng d (ha ▸ hs)
        rw [← ha] at this
        exact to_wp (R := I s.st) this
  | close =>
    refine hw (closeM R env) ?_
    unfold closeM
    simp only [bind_eq, pure_eq]
    rw [wp_bind, wp_get]
    split
    · exact hs
    · split
      · exact h.abort _ _ hs
      · rename_i ha
        have ha : s.st = R.app := Decidable.not_not.mp ha
        rw [wp_bind, wp_onEng]
        refine wp_mono (h.alert s.eng (ha ▸ hs)) (fun _ _ he => he) ?_
        intro f e' he
        rw [← ha] at he
        exact he
  | poll n =>
    rcases call_phase h s hs (.poll n) with g | g
    · exact g
    · exact absurd rfl (g.2.2 _)

theorem run_smooth {I : R.St → Eng → Prop} (h : StepOk R env I (fun _ _ => True)) (cs : List Call) (s : Ses R.St)
    (hs : I s.st s.eng) (hc : Smooth R env s cs) : I (run R env s cs).2.st (run R env s cs).2.eng := by
  induction cs generalizing s with
  | nil => exact hs
  | cons c cs ih =>
    have ha := call_smooth h s hs c hc.1
    rw [run_snd]
    split
    · exact ha
    · exact ih _ ha hc.2

/-- As long as no datagram and no timeout fails. -/
theorem Start.ackInv' (h : Start env cfg R s0) (cs : List Call) (hc : Smooth R env s0 cs) :
    AckInv true (run R env s0 cs).2.eng := by
  have h0 := h.ack0 true
  have h1 : s0.eng.release = false := congrArg RxPart.release h.rp0
  have h2 : s0.eng.kuInFlight = false := by cases h <;> rfl
  have h3 : ∀ n, 0 < n → Acks n 0 s0.eng := fun n hn =>
    ⟨show RelInv n 0 s0.eng .idle from ⟨fun _ => h1, fun h => absurd h (by omega), nofun⟩, h0, fun _ _ => h2⟩
  cases h with
  | client now =>
    exact (run_smooth (stepOk_ack (ph := C13.phase) (n := 1) (C13.roleOk env) rfl rfl rfl
      (by intro st; cases st <;> simp [C13.role, C13.phase]) (by decide)
      (C13.stepOk relInv_client)) cs _ (h3 1 (by decide)) hc).2.1
  | hybrid random transcript kx now =>
    exact (run_smooth (stepOk_ack (ph := C13.phase) (n := 1) (C13.roleOk env) rfl rfl rfl
      (by intro st; cases st <;> simp [C13.role, C13.phase]) (by decide)
      (C13.stepOk relInv_client)) cs _ (h3 1 (by decide)) hc).2.1
  | server now auto =>
    exact (run_smooth (stepOk_ack (ph := S13.phase) (n := 2) (S13.roleOk env) rfl rfl rfl
      (by intro st; cases st <;> simp [S13.role, S13.phase]) (by decide)
      (S13.stepOk relInv_server)) cs _ (h3 2 (by decide)) hc).2.1

end sessions
end Verif.E13

import Verif.Props.Wire
import Verif.Lemmas.Engine12
import Verif.Props.Recv12

/-!
# Fragmentation and reassembly of handshake messages, DTLS 1.2 (C10, C12, C14)
-/

namespace Verif.Props.Frag12

open Verif Verif.Wire Verif.E12

/-! ## Specification -/

/-- The fragments `hs` cut the message with type `t`, number `q` and body `body` into consecutive pieces,
starting at offset `off`. -/
def Cut (t : UInt8) (q : Nat) (body : Bytes) : Nat → List Hs → Prop
  | off, [] => off = body.length
  | off, h :: rest =>
    h.header = { msgType := t, length := body.length, messageSeq := q, fragOff := off,
                 fragLen := h.body.length }
    ∧ h.body = (body.drop off).take h.body.length ∧ h.handled = false
    ∧ Cut t q body (off + h.body.length) rest

/-- The plaintexts of the records put on the transmit queue, newest first. -/
def plains (l : List Ev) : List Bytes :=
  l.filterMap fun | .queued _ _ _ p => some p | _ => none

/-- `a` is before `b`. -/
def Before (a b : Hs) : Prop :=
  a.header.messageSeq < b.header.messageSeq
  ∨ a.header.messageSeq = b.header.messageSeq ∧ a.header.fragOff < b.header.fragOff

/-- The receive queue `rx` holds the fragments `hs` as the next unhandled ones: everything before them is
handled, everything behind belongs to other messages, and they lie in at most 50 records. -/
def Holds (q : Nat) (hs : List Hs) (rx : List (List Rx)) : Prop :=
  ∃ old cur more : List Rx, ∃ done after : List Hs,
    rx.flatten = old ++ cur ++ more ∧ (∀ r ∈ old, r.isHandled = true) ∧ cur.length ≤ 50
    ∧ cur.flatMap (·.hss) = done ++ hs ++ after ∧ (∀ h ∈ done, h.handled = true)
    ∧ (∀ h ∈ after, h.header.messageSeq ≠ q) ∧ (∀ h ∈ more.flatMap (·.hss), h.header.messageSeq ≠ q)

/-! ## The sender -/

theorem sealRecord_ok {env : Env} {ct : UInt8} {append : Bool} {f : Bytes} {s s' : Eng}
    (h : sealRecord env ct append f s = (.ok (), s')) :
    s'.saved = s.saved ∧ plains s'.log = f :: plains s.log
      ∧ s'.transcript = s.transcript ∧ s'.cfg = s.cfg ∧ s'.nextSeq = s.nextSeq := by
  unfold sealRecord at h
  split at h
  · cases h
  split at h
  · cases h
  dsimp only at h
  repeat' split at h
  all_goals first
    | (cases h; done)
    | (cases h; refine ⟨rfl, ?_, rfl, rfl, rfl⟩; simp [emitRecord, plains])

/-- A record creation that succeeds saves the fragment and logs it. -/
theorem createRecord_ok {env : Env} {ct : UInt8} {ep : Nat} {force : Bool} {f : Bytes} {s s' : Eng}
    (h : createRecord env ct ep true force f s = (.ok (), s')) :
    s'.saved = s.saved ++ [⟨ct, ep, f⟩] ∧ plains s'.log = f :: plains s.log
      ∧ s'.transcript = s.transcript ∧ s'.cfg = s.cfg ∧ s'.nextSeq = s.nextSeq := by
  unfold createRecord at h
  by_cases h1 : ep ≥ 1 ∧ s.suite = none
  · rw [if_pos h1] at h; cases h
  rw [if_neg h1] at h
  simp only [saveEntry, if_true] at h
  split at h
  · cases h
  split at h
  · exact sealRecord_ok h
  · cases h
    refine ⟨rfl, ?_, rfl, rfl, rfl⟩
    simp [emitRecord, plains]

/-- The entry a fragment is saved as. -/
def entryOf (t : UInt8) (h : Hs) : Entry := ⟨ctHandshake, msgEpoch t, serializeHs h.header h.body⟩

theorem chunk_le (s : Eng) (p total off : Nat) : chunkLen s p total off ≤ total - off := by
  unfold chunkLen
  dsimp only
  split
  · omega
  · exact Nat.min_le_left ..

theorem chunk_pos (s : Eng) (p total off : Nat) (hm : s.cfg.mtu > 25 + p) (ho : off < total) :
    0 < chunkLen s p total off := by
  unfold chunkLen
  dsimp only
  rw [if_neg (by omega)]
  split <;> omega

/-- The bodies of a cut put together again. -/
theorem Cut.body {t : UInt8} {q : Nat} {body : Bytes} :
    ∀ {hs : List Hs} {off : Nat}, Cut t q body off hs → hs.flatMap (·.body) = body.drop off := by
  intro hs
  induction hs with
  | nil => intro off h; simp only [Cut] at h; subst h; simp
  | cons h rest ih =>
    intro off hc
    obtain ⟨_, h2, _, h4⟩ := hc
    rw [List.flatMap_cons, ih h4, ← List.drop_drop]
    generalize h.body.length = n at h2
    rw [h2]
    exact List.take_append_drop ..

theorem Cut.mem {t : UInt8} {q : Nat} {body : Bytes} :
    ∀ {hs : List Hs} {off : Nat}, Cut t q body off hs → ∀ h ∈ hs,
      h.header.msgType = t ∧ h.header.messageSeq = q ∧ h.header.length = body.length ∧ h.handled = false
      ∧ h.header.fragLen = h.body.length ∧ h.header.fragOff + h.body.length ≤ body.length := by
  intro hs
  induction hs with
  | nil => intro off _ h hm; cases hm
  | cons x rest ih =>
    intro off hc h hm
    obtain ⟨h1, h2, h3, h4⟩ := hc
    rcases List.mem_cons.1 hm with rfl | hm
    · refine ⟨by rw [h1], by rw [h1], by rw [h1], h3, by rw [h1], ?_⟩
      rw [h1]
      have := h4.body
      have hle : ∀ {hs : List Hs} {off : Nat}, Cut t q body off hs → off ≤ body.length := by
        intro hs
        induction hs with
        | nil => intro off h; simp only [Cut] at h; omega
        | cons y ys ih => intro off h; have := ih h.2.2.2; omega
      exact hle h4
    · exact ih h4 h hm

theorem loop_cut {env : Env} {t : UInt8} {q : Nat} {body : Bytes} {p : Nat} :
    ∀ (fuel off : Nat) {s : Eng} (s' : Eng), off ≤ body.length → (body = [] → off = 0) →
      25 + p < s.cfg.mtu →
      (off < body.length ∨ body = []) →
      fragmentLoop env t q body p fuel off s = (.ok (), s') →
      ∃ hs : List Hs, hs ≠ [] ∧ Cut t q body off hs ∧ (body ≠ [] → ∀ h ∈ hs, h.body ≠ [])
        ∧ s'.saved = s.saved ++ hs.map (entryOf t)
        ∧ plains s'.log = (hs.map fun h => serializeHs h.header h.body).reverse ++ plains s.log
        ∧ s'.transcript = s.transcript
        ∧ hs.Pairwise Before ∧ ∀ h ∈ hs, off ≤ h.header.fragOff := by
  intro fuel
  induction fuel with
  | zero => intro off s s' _ _ _ _ h; cases h
  | succ n ih =>
    intro off s s' hle he hm hgo h
    unfold fragmentLoop at h
    dsimp only at h
    rw [if_pos (by rcases hgo with h1 | h1
                   · exact Or.inl h1
                   · exact Or.inr ⟨by rw [h1]; rfl, he h1⟩)] at h
    have hc := chunk_le s p body.length off
    have hp := chunk_pos s p body.length off hm
    generalize chunkLen s p body.length off = c at h hc hp
    cases hr : createRecord env ctHandshake (msgEpoch t) true false (hsFragment t q body off c) s with
    | mk r s1 =>
      simp only [M.bind, hr] at h
      cases r with
      | fail e => cases h
      | ok u =>
        obtain ⟨hs1, hl1, ht1, hc1, hn1⟩ := createRecord_ok hr
        let x : Hs := ⟨⟨t, body.length, q, off, c⟩, (body.drop off).take c, false⟩
        have hxl : x.body.length = c := by simp [x]; omega
        have hx : x.header = ⟨t, body.length, q, off, x.body.length⟩ ∧ x.body = (body.drop off).take x.body.length
                 ∧ x.handled = false := by rw [hxl]; exact ⟨rfl, rfl, rfl⟩
        have hent : entryOf t x = ⟨ctHandshake, msgEpoch t, hsFragment t q body off c⟩ := rfl
        by_cases hb : body.length = 0
        · rw [if_pos hb] at h
          cases h
          refine ⟨[x], by simp, ⟨hx.1, hx.2.1, hx.2.2, ?_⟩, ?_, ?_, ?_, ht1, by simp, by simp [x]⟩
          · show off + x.body.length = body.length; omega
          · intro hne; exact absurd (List.length_eq_zero_iff.1 hb) hne
          · rw [hs1, List.map_singleton, hent]
          · rw [hl1]; rfl
        · rw [if_neg hb] at h
          have hlt : off < body.length := by
            rcases hgo with h1 | h1
            · exact h1
            · rw [h1] at hb; simp at hb
          have hxne : x.body ≠ [] := by
            intro hx0; have := hp hlt; rw [hx0] at hxl; simp at hxl; omega
          by_cases hlast : off + c = body.length
          · have hend : fragmentLoop env t q body p n (off + c) s1 = (.ok (), s1) ∨
                fragmentLoop env t q body p n (off + c) s1 = (.fail .diverge, s1) := by
              cases n with
              | zero => exact Or.inr rfl
              | succ n =>
                left
                unfold fragmentLoop
                dsimp only
                rw [if_neg (by omega)]
            rcases hend with hend | hend
            · simp only [M.andThen, hend] at h
              cases h
              refine ⟨[x], by simp, ⟨hx.1, hx.2.1, hx.2.2, ?_⟩, ?_, ?_, ?_, ht1, by simp, by simp [x]⟩
              · show off + x.body.length = body.length; omega
              · intro _ y hy; rw [List.mem_singleton.1 hy]; exact hxne
              · rw [hs1, List.map_singleton, hent]
              · rw [hl1]; rfl
            · simp only [M.andThen, hend] at h; cases h
          · have hcp := hp hlt
            obtain ⟨hs, h1, h2, h3, h4, h5, h6, h7, h8⟩ := ih (off + c) s' (by omega)
              (by intro hb0; rw [hb0] at hb; simp at hb) (by rw [hc1]; exact hm) (Or.inl (by omega)) h
            refine ⟨x :: hs, by simp, ⟨hx.1, hx.2.1, hx.2.2, by rw [hxl]; exact h2⟩, ?_, ?_, ?_, ?_, ?_, ?_⟩
            · intro hne y hy
              rcases List.mem_cons.1 hy with rfl | hy
              · exact hxne
              · exact h3 hne y hy
            · rw [h4, hs1, List.map_cons, hent]; simp
            · rw [h5, hl1]; simp [x, hsFragment]
            · rw [h6, ht1]
            · refine List.pairwise_cons.2 ⟨?_, h7⟩
              intro y hy
              obtain ⟨_, m2, _⟩ := h2.mem y hy
              have := h8 y hy
              exact Or.inr ⟨m2.symm, by show off < _; omega⟩
            · intro y hy
              rcases List.mem_cons.1 hy with rfl | hy
              · exact Nat.le_refl _
              · have := h8 y hy; omega

/-- **C10 (DTLS 1.2), sender.** Whenever creating a handshake message succeeds, with any MTU of at least 64
and any fill level of the transmit queue, the records queued (and saved for retransmission) carry, in order,
fragments that cut the message into consecutive non-empty pieces, each of which is parsed back from its
record, and the transcript grows by the message as one unfragmented piece. -/
theorem sender_fragments {env : Env} {t : UInt8} {body : Bytes} {s s' : Eng}
    (hmtu : 64 ≤ s.cfg.mtu) (hprot : s.overhead (msgEpoch t) ≤ 24) (hb : body.length < 2 ^ 24)
    (h : createHandshake env t body s = (.ok (), s')) :
    ∃ hs : List Hs, hs ≠ [] ∧ Cut t s.nextSeq body 0 hs ∧ (body ≠ [] → ∀ h ∈ hs, h.body ≠ [])
      ∧ hs.Pairwise Before
      ∧ s'.saved = s.saved ++ hs.map (entryOf t)
      ∧ plains s'.log = (hs.map fun h => serializeHs h.header h.body).reverse ++ plains s.log
      ∧ (∀ h ∈ hs, parseHandshakes 8 (serializeHs h.header h.body) = [h])
      ∧ s'.transcript = s.transcript ++ transcriptOf t body.length s.nextSeq body := by
  unfold createHandshake at h
  dsimp only at h
  split at h
  · cases h
  rename_i hq
  split at h
  · cases h
  have hm' : 25 + s.overhead (msgEpoch t) < s.cfg.mtu := by omega
  obtain ⟨hs, h1, h2, h3, h4, h5, h6, h8, _⟩ := loop_cut (s := { s with
      transcript := s.transcript ++ transcriptOf t body.length s.nextSeq body, nextSeq := s.nextSeq + 1 })
    (body.length + 1) 0 s' (Nat.zero_le _) (fun _ => rfl) hm'
    (by rcases Nat.eq_zero_or_pos body.length with h0 | h0
        · exact Or.inr (List.length_eq_zero_iff.1 h0)
        · exact Or.inl h0) h
  refine ⟨hs, h1, h2, h3, h8, h4, h5, ?_, h6⟩
  intro x hx
  obtain ⟨m1, m2, m3, m4, m5, m6⟩ := h2.mem x hx
  have := Props.Wire.handshakes_roundtrip 8 [(x.header, x.body)] (by simp) (by
    intro p hp
    rw [List.mem_singleton.1 hp]
    refine ⟨⟨?_, ?_, ?_, ?_⟩, m5.symm⟩ <;> dsimp only <;> omega)
  simp only [List.map_singleton, List.flatten_singleton] at this
  rw [this]
  congr 1
  cases x
  simp_all

/-! ## The receiver -/

theorem dropWhile_all {α : Type} {p : α → Bool} {l : List α} (h : ∀ x ∈ l, p x = true) : l.dropWhile p = [] := by
  induction l with
  | nil => rfl
  | cons a l ih => rw [List.dropWhile_cons, if_pos (h a (by simp)), ih (fun x hx => h x (by simp [hx]))]

theorem flatMap_dropWhile (l : List Rx) :
    ((l.dropWhile (·.isHandled)).flatMap (·.hss)).dropWhile (·.handled)
      = (l.flatMap (·.hss)).dropWhile (·.handled) := by
  induction l with
  | nil => rfl
  | cons r l ih =>
    rw [List.dropWhile_cons]
    split
    · rename_i h
      rw [ih, List.flatMap_cons, List.dropWhile_append]
      rw [if_pos]
      unfold Rx.isHandled at h
      split at h
      · rename_i h2; simp [List.isEmpty_iff.1 h2]
      · exact List.isEmpty_iff.2 (dropWhile_all (by simpa using h))
    · rfl

theorem dropWhile_old {old l : List Rx} (h : ∀ r ∈ old, r.isHandled = true) :
    (old ++ l).dropWhile (·.isHandled) = l.dropWhile (·.isHandled) := by
  rw [List.dropWhile_append, if_pos]
  exact List.isEmpty_iff.2 (dropWhile_all h)

theorem dropWhile_done {d l : List Hs} (h : ∀ r ∈ d, r.handled = true) :
    (d ++ l).dropWhile (·.handled) = l.dropWhile (·.handled) := by
  rw [List.dropWhile_append, if_pos]
  exact List.isEmpty_iff.2 (dropWhile_all h)

theorem dropWhile_fresh {l m : List Hs} (hne : l ≠ []) (h : ∀ r ∈ l, r.handled = false) :
    (l ++ m).dropWhile (·.handled) = l ++ m := by
  cases l with
  | nil => exact absurd rfl hne
  | cons a l =>
    rw [List.cons_append, List.dropWhile_cons, if_neg]
    rw [h a (by simp)]; simp

theorem Holds.nextView {q : Nat} {hs : List Hs} {rx : List (List Rx)} (h : Holds q hs rx) (hne : hs ≠ [])
    (hf : ∀ x ∈ hs, x.handled = false) :
    ∃ m, nextView rx = hs ++ m ∧ ∀ x ∈ m, x.header.messageSeq ≠ q := by
  obtain ⟨old, cur, more, done, after, e, ho, hl, ec, hd, ha, hm⟩ := h
  refine ⟨after ++ more.flatMap (·.hss), ?_, ?_⟩
  · unfold E12.nextView
    rw [e, List.append_assoc, dropWhile_old ho, flatMap_dropWhile, List.flatMap_append, ec, List.append_assoc,
      List.append_assoc, dropWhile_done hd, dropWhile_fresh hne hf]
  · intro x hx
    rcases List.mem_append.1 hx with hx | hx
    · exact ha x hx
    · exact hm x hx

theorem dropWhile_take {l m : List Rx} {n : Nat} (hn : l.length ≤ n) :
    ∃ k, (((l ++ m).dropWhile (·.isHandled)).take n).flatMap (·.hss)
      = ((l.dropWhile (·.isHandled)).flatMap (·.hss)) ++ k
      ∧ ∀ x ∈ k, x ∈ m.flatMap (·.hss) := by
  rw [List.dropWhile_append]
  split
  · rename_i h
    have : l.dropWhile (·.isHandled) = [] := List.isEmpty_iff.1 h
    rw [this]
    refine ⟨_, rfl, ?_⟩
    intro x hx
    obtain ⟨r, hr, hx⟩ := List.mem_flatMap.1 hx
    exact List.mem_flatMap.2 ⟨r, (List.dropWhile_suffix _).subset (List.mem_of_mem_take hr), hx⟩
  · have hl : (l.dropWhile (·.isHandled)).length ≤ n := Nat.le_trans (List.dropWhile_suffix _).length_le hn
    rw [List.take_append, List.take_of_length_le hl, List.flatMap_append]
    refine ⟨_, rfl, ?_⟩
    intro x hx
    obtain ⟨r, hr, hx⟩ := List.mem_flatMap.1 hx
    exact List.mem_flatMap.2 ⟨r, List.mem_of_mem_take hr, hx⟩

theorem Holds.completeView {q : Nat} {hs : List Hs} {rx : List (List Rx)} (h : Holds q hs rx) (hne : hs ≠ [])
    (hf : ∀ x ∈ hs, x.handled = false) :
    ∃ m, completeView rx = hs ++ m := by
  obtain ⟨old, cur, more, done, after, e, ho, hl, ec, hd, ha, hm⟩ := h
  obtain ⟨k, hk, _⟩ := dropWhile_take (m := more) hl
  refine ⟨after ++ k, ?_⟩
  unfold E12.completeView
  rw [e, List.append_assoc, dropWhile_old ho, hk, List.dropWhile_append, flatMap_dropWhile, ec,
    List.append_assoc, dropWhile_done hd, dropWhile_fresh hne hf]
  rw [if_neg]
  · simp
  · cases hs with
    | nil => exact absurd rfl hne
    | cons a l => simp

theorem contiguous_cut {t : UInt8} {q : Nat} {body : Bytes} (m : List Hs) :
    ∀ {hs : List Hs} {off : Nat}, hs ≠ [] → Cut t q body off hs → contiguous q body.length (hs ++ m) off = true := by
  intro hs
  induction hs with
  | nil => intro off h; exact absurd rfl h
  | cons x rest ih =>
    intro off _ hc
    obtain ⟨h1, h2, h3, h4⟩ := hc
    rw [List.cons_append, contiguous, if_neg (by rw [h1]; simp), if_neg (by rw [h1]; simp)]
    split
    · rfl
    · rename_i hne
      rw [h1] at hne ⊢
      refine ih ?_ h4
      rintro rfl
      exact hne h4

theorem takeWhile_cut {p : Hs → Bool} {l m : List Hs} (hl : ∀ x ∈ l, p x = true) (hm : ∀ x ∈ m, p x = false) :
    (l ++ m).takeWhile p = l := by
  induction l with
  | nil =>
    cases m with
    | nil => rfl
    | cons a m => simp [hm a (by simp)]
  | cons a l ih =>
    rw [List.cons_append, List.takeWhile_cons, if_pos (hl a (by simp)), ih (fun x hx => hl x (by simp [hx]))]

/-- **C10 (DTLS 1.2), receiver.** If at most 50 records hold a cut of a message as the next unhandled
fragments, and the message has the expected number, it is consumed: type, number and body are those of the
cut message and the transcript grows by the message as one unfragmented piece. -/
theorem receiver_reassembles {env : Env} {t : UInt8} {body : Bytes} {hs : List Hs} {s : Eng} {b : Body}
    (hc : Cut t s.peerSeq body 0 hs) (hne : hs ≠ []) (hlen : hs.length ≤ 50) (hq : s.peerSeq < 65535)
    (hh : Holds s.peerSeq hs s.rx) (hp : parseBody env t s.suite body = some ([], b)) :
    hasComplete s t = true ∧
    nextHandshake env t s = (.ok (some b), { s with
      rx := markQueue false hs.length s.rx
      peerSeq := s.peerSeq + 1
      transcript := s.transcript ++ transcriptOf t body.length s.peerSeq body
      log := .consumed s.peerSeq t body :: s.log }) := by
  have hf : ∀ x ∈ hs, x.handled = false := fun x hx => (hc.mem x hx).2.2.2.1
  obtain ⟨m1, e1⟩ := hh.completeView hne hf
  obtain ⟨m2, e2, hm2⟩ := hh.nextView hne hf
  cases hs with
  | nil => exact absurd rfl hne
  | cons x rest =>
    obtain ⟨g1, g2, g3, g4⟩ := (hc.1 : x.header = _) ▸ (⟨rfl, rfl, rfl, rfl⟩ :
      (⟨t, body.length, s.peerSeq, 0, x.body.length⟩ : HsHeader).msgType = t ∧
      (⟨t, body.length, s.peerSeq, 0, x.body.length⟩ : HsHeader).length = body.length ∧
      (⟨t, body.length, s.peerSeq, 0, x.body.length⟩ : HsHeader).messageSeq = s.peerSeq ∧
      (⟨t, body.length, s.peerSeq, 0, x.body.length⟩ : HsHeader).fragOff = 0)
    have hcomp : hasComplete s t = true := by
      unfold hasComplete
      rw [e1, List.cons_append]
      dsimp only
      rw [if_neg (by rw [g3]; simp), if_neg (by rw [g1]; simp), g3, g2]
      exact contiguous_cut m1 hne hc
    refine ⟨hcomp, ?_⟩
    have hrun : fragmentRun x (rest ++ m2) = x :: rest := by
      unfold fragmentRun
      congr 1
      apply takeWhile_cut
      · intro y hy
        obtain ⟨a1, a2, _⟩ := hc.mem y (by simp [hy])
        rw [a1, a2, g1, g3]; simp
      · intro y hy
        rw [g3]; simp [hm2 y hy]
    have hbody := hc.body
    rw [List.drop_zero] at hbody
    unfold nextHandshake
    rw [hcomp, e2]
    simp only [Bool.not_true, Bool.false_eq_true, if_false, List.cons_append]
    unfold defragment
    rw [hrun]
    dsimp only
    rw [if_neg (by omega), hbody, g1, g2, g3, if_neg (by simp), hp]
    dsimp only
    rw [if_neg (by simp), if_neg (by omega)]

/-- **C10 (DTLS 1.2).** A message cut by any sender and held by any receiver expecting its number, in at most
50 records, arrives exactly: same type, same body, and both transcripts grow by the same bytes.
Missing: more than 50 fragments, see `too_many_fragments`. -/
theorem reassembled_exactly_partial {env env' : Env} {t : UInt8} {body : Bytes} {s s' r : Eng} {b : Body}
    (hmtu : 64 ≤ s.cfg.mtu) (hprot : s.overhead (msgEpoch t) ≤ 24) (hb : body.length < 2 ^ 24)
    (h : createHandshake env t body s = (.ok (), s')) :
    ∃ hs : List Hs,
      (∃ old, plains s'.log = old ++ plains s.log ∧ old.reverse.flatMap (parseHandshakes 8) = hs) ∧
      (s'.saved.drop s.saved.length).flatMap (fun e => parseHandshakes 8 e.fragment) = hs ∧
      (∃ bytes, s'.transcript = s.transcript ++ bytes ∧
        (hs.length ≤ 50 → r.peerSeq = s.nextSeq → r.peerSeq < 65535 → Holds r.peerSeq hs r.rx →
          parseBody env' t r.suite body = some ([], b) →
          ∃ rx', nextHandshake env' t r = (.ok (some b), { r with
            rx := rx'
            peerSeq := r.peerSeq + 1
            transcript := r.transcript ++ bytes
            log := .consumed r.peerSeq t body :: r.log }))) := by
  obtain ⟨hs, h1, h2, _, _, h4, h5, h6, h7⟩ := sender_fragments hmtu hprot hb h
  have hmap : ∀ l : List Hs, (∀ x ∈ l, parseHandshakes 8 (serializeHs x.header x.body) = [x]) →
      l.flatMap (fun x => parseHandshakes 8 (serializeHs x.header x.body)) = l := by
    intro l hl
    induction l with
    | nil => rfl
    | cons a l ih => rw [List.flatMap_cons, hl a (by simp), ih (fun x hx => hl x (by simp [hx]))]; rfl
  refine ⟨hs, ⟨_, h5, ?_⟩, ?_, _, h7, ?_⟩
  · rw [List.reverse_reverse, List.flatMap_map]; exact hmap hs h6
  · rw [h4, List.drop_left, List.flatMap_map]; exact hmap hs h6
  · intro hlen hseq hq hh hp
    rw [← hseq] at h2 ⊢
    exact ⟨_, (receiver_reassembles h2 h1 hlen hq hh hp).2⟩

/-! ### Concrete cases -/

/-- Feed datagrams to an engine; `none` if one of them fails. -/
def feed (env : Env) : List Bytes → Eng → Option Eng
  | [], s => some s
  | p :: rest, s => match parsePacket env p s with
    | (.ok (), s') => feed env rest s'
    | _ => none

def small : Cfg := { Demo.cfg with mtu := 64, maxRx := 100, maxTx := 100 }
def receiver : Eng := Eng.new Demo.certEnv.toEnv small true
def senderAt (mtu : Nat) (t : UInt8) (body : Bytes) : Eng :=
  (createHandshake Demo.certEnv.toEnv t body (Eng.new Demo.certEnv.toEnv { small with mtu } false)).2
def longBody (n : Nat) : Bytes := (List.range n).map UInt8.ofNat

/-- A message of 100 bytes with an MTU of 64 is sent in three fragments; a receiver gets and consumes it. -/
example :
    (createHandshake Demo.certEnv.toEnv 11 (longBody 100) (Eng.new Demo.certEnv.toEnv small false)).1 = .ok () ∧
    (senderAt 64 11 (longBody 100)).saved.length = 3 ∧
    ((feed Demo.certEnv.toEnv (senderAt 64 11 (longBody 100)).tx receiver).map fun r =>
      ((nextHandshake Demo.certEnv.toEnv 11 r).2.log.head?,
        decide ((nextHandshake Demo.certEnv.toEnv 11 r).2.transcript
          = (senderAt 64 11 (longBody 100)).transcript)))
      = some (some (.consumed 0 11 (longBody 100)), true) := by decide +kernel

/-- The receiver of the case above satisfies `Holds`. -/
example : ((feed Demo.certEnv.toEnv (senderAt 64 11 (longBody 100)).tx receiver).map fun r =>
    (r.rx.flatten.length, (r.rx.flatten.flatMap (·.hss)).map fun h => (h.header.fragOff, h.header.fragLen)))
      = some (3, [(0, 39), (39, 39), (78, 22)]) := by decide +kernel

/-- **C10 fails** for messages in more than 50 fragments: a 1990-byte message at an MTU of 64 goes out in 52
records, all of them are received in order without error, and the message is never complete. -/
theorem too_many_fragments :
    (createHandshake Demo.certEnv.toEnv 11 (longBody 1990) (Eng.new Demo.certEnv.toEnv small false)).1 = .ok () ∧
    (senderAt 64 11 (longBody 1990)).saved.length = 52 ∧
    ((feed Demo.certEnv.toEnv (senderAt 64 11 (longBody 1990)).tx receiver).map fun r =>
      (r.rx.length, hasComplete r 11)) = some (52, false) := by decide +kernel

/-! ## C12 -/

/-- A datagram with one plaintext handshake record. -/
def dgram (n : Nat) (fs : List Bytes) : Bytes :=
  serialize12 { ctype := ctHandshake, version := verDtls12, epoch := 0, seq := n,
                length := fs.flatten.length, fragment := fs.flatten }

/-- The fragments cover the message: every byte position is in one of them. -/
def covers (n : Nat) (l : List (Nat × Nat)) : Bool :=
  (List.range n).all fun i => l.any fun (o, c) => o ≤ i && i < o + c

/-- **C12 fails.** Both fragments of a message sent with a small MTU, then the whole message as a peer with a
larger MTU would retransmit it: the second fragment got lost, the complete message arrives, and it is
dropped, because it compares equal to the fragment that starts at the same offset. The same happens for
overlapping pieces: they are kept but never joined. -/
theorem refragmented_stalls :
    covers 8 [(0, 4), (0, 8)] = true ∧
    ((feed Demo.certEnv.toEnv
        [dgram 0 [hsFragment 11 0 (longBody 8) 0 4], dgram 2 [hsFragment 11 0 (longBody 8) 0 8]] receiver).map
      fun r => (r.rx.length, hasComplete r 11)) = some (1, false) ∧
    covers 8 [(0, 4), (2, 6)] = true ∧
    ((feed Demo.certEnv.toEnv
        [dgram 0 [hsFragment 11 0 (longBody 8) 0 4], dgram 2 [hsFragment 11 0 (longBody 8) 2 6]] receiver).map
      fun r => (r.rx.length, hasComplete r 11)) = some (2, false) := by decide +kernel

/-! ## C14 -/

/-- **C14 fails.** Messages 0 and 2 in one datagram and message 1 in the next: all three have arrived, but
after consuming message 0 the queue shows message 2 first, and message 1 is never found. -/
theorem packing_stalls :
    ((feed Demo.certEnv.toEnv
        [dgram 0 [hsFragment 2 0 (longBody 4) 0 4, hsFragment 12 2 (longBody 4) 0 4],
         dgram 1 [hsFragment 11 1 (longBody 4) 0 4]] receiver).map fun r =>
      let r1 := (nextHandshake Demo.certEnv.toEnv 2 r).2
      (r1.peerSeq, hasComplete r1 11, hasComplete { r1 with rx := (purge r1).rx } 11)) = some (1, false, false) := by
  decide +kernel

/-- A datagram holding one record with exactly the fragment `h`. -/
def Carries (h : Hs) (rs : List Rx) : Prop := ∃ r, rs = [r] ∧ r.hss = [h]

/-- Position of a fragment: message number, then offset. -/
def pos (h : Hs) : Nat × Nat := (h.header.messageSeq, h.header.fragOff)

theorem cmp_lt {a b : Hs} : cmpPair (pos a) (pos b) = .lt ↔ Before a b := by
  unfold cmpPair pos Before
  simp only [Ordering.then_eq_lt, Nat.compare_eq_lt, Nat.compare_eq_eq]

theorem cmp_gt {a b : Hs} : cmpPair (pos a) (pos b) = .gt ↔ Before b a := by
  unfold cmpPair pos Before
  simp only [Ordering.then_eq_gt, Nat.compare_eq_gt, Nat.compare_eq_eq]
  omega

theorem cmp_eq {a b : Hs} : cmpPair (pos a) (pos b) = .eq ↔ pos a = pos b := by
  unfold cmpPair pos
  simp only [Ordering.then_eq_eq, Nat.compare_eq_eq, Prod.mk.injEq]

theorem Before.trans {a b c : Hs} (h : Before a b) (h' : Before b c) : Before a c := by
  unfold Before at *; omega

theorem Before.irrefl {a : Hs} : ¬ Before a a := by unfold Before; omega

theorem hsKey_carries {h : Hs} {rs : List Rx} (hc : Carries h rs) : hsKey rs = pos h := by
  obtain ⟨r, rfl, hr⟩ := hc
  simp [hsKey, hr, pos]

/-- Two strictly ordered lists with the same members are equal. -/
theorem sorted_ext {l m : List Hs} (hl : l.Pairwise Before) (hm : m.Pairwise Before)
    (h : ∀ x, x ∈ l ↔ x ∈ m) : l = m := by
  induction l generalizing m with
  | nil =>
    cases m with
    | nil => rfl
    | cons b m => exact absurd ((h b).2 (by simp)) (by simp)
  | cons a l ih =>
    cases m with
    | nil => exact absurd ((h a).1 (by simp)) (by simp)
    | cons b m =>
      rw [List.pairwise_cons] at hl hm
      have hab : a = b := by
        rcases List.mem_cons.1 ((h a).1 (by simp)) with e | ha
        · exact e
        · rcases List.mem_cons.1 ((h b).2 (by simp)) with e | hb
          · exact e.symm
          · exact absurd ((hl.1 b hb).trans (hm.1 a ha)) Before.irrefl
      subst hab
      rw [ih hl.2 hm.2]
      intro x
      constructor
      · intro hx
        rcases List.mem_cons.1 ((h x).1 (by simp [hx])) with rfl | h'
        · exact absurd (hl.1 x hx) Before.irrefl
        · exact h'
      · intro hx
        rcases List.mem_cons.1 ((h x).2 (by simp [hx])) with rfl | h'
        · exact absurd (hm.1 x hx) Before.irrefl
        · exact h'

/-- The queue holds exactly the fragments `l`, each in its own datagram, in this order. -/
inductive Queue : List Hs → List (List Rx) → Prop
  | nil : Queue [] []
  | cons {h : Hs} {l : List Hs} {rs : List Rx} {rx : List (List Rx)} :
      Carries h rs → Queue l rx → Queue (h :: l) (rs :: rx)

theorem Queue.length {l : List Hs} {rx : List (List Rx)} (h : Queue l rx) : rx.length = l.length := by
  induction h with
  | nil => rfl
  | cons _ _ ih => simp [ih]

theorem Queue.keys {l : List Hs} {rx : List (List Rx)} (h : Queue l rx) : rx.map hsKey = l.map pos := by
  induction h with
  | nil => rfl
  | cons hc _ ih => simp [ih, hsKey_carries hc]

theorem Queue.append {l m : List Hs} {rx ry : List (List Rx)} (h : Queue l rx) (h' : Queue m ry) :
    Queue (l ++ m) (rx ++ ry) := by
  induction h with
  | nil => exact h'
  | cons hc _ ih => exact .cons hc ih

theorem Queue.split {l m : List Hs} {rx : List (List Rx)} (h : Queue (l ++ m) rx) :
    ∃ ra rb, rx = ra ++ rb ∧ Queue l ra ∧ Queue m rb := by
  induction l generalizing rx with
  | nil => exact ⟨[], rx, rfl, .nil, h⟩
  | cons a l ih =>
    cases h with
    | cons hc h =>
      obtain ⟨ra, rb, rfl, h1, h2⟩ := ih h
      exact ⟨_ :: ra, rb, rfl, .cons hc h1, h2⟩

theorem Queue.takeDrop {l : List Hs} {rx : List (List Rx)} (h : Queue l rx) (i : Nat) :
    Queue (l.take i) (rx.take i) ∧ Queue (l.drop i) (rx.drop i) := by
  induction h generalizing i with
  | nil => simpa using Queue.nil
  | cons hc h ih =>
    cases i with
    | zero => exact ⟨.nil, .cons hc h⟩
    | succ i => exact ⟨.cons hc (ih i).1, (ih i).2⟩

theorem Queue.flat {l : List Hs} {rx : List (List Rx)} (h : Queue l rx) :
    rx.flatten.flatMap (·.hss) = l ∧ rx.flatten.length = l.length := by
  induction h with
  | nil => exact ⟨rfl, rfl⟩
  | cons hc _ ih =>
    obtain ⟨r, rfl, hr⟩ := hc
    simp [hr, ih.1, ih.2]

/-- What an engine must satisfy for handshake fragments to be queued. -/
structure Open (s : Eng) (rs : List Rx) : Prop where
  release : s.release = false
  epoch : ∀ r ∈ rs, s.peerEnc = true → r.rcd.epoch ≠ 0

/-- One datagram carrying the fragment `h` arrives: it is put in its place, or is there already. -/
theorem insert_one {env : Env} {s : Eng} {l : List Hs} {rs : List Rx} {h : Hs}
    (hse : SearchOk env.search) (hq : Queue l s.rx) (hs : l.Pairwise Before) (hc : Carries h rs)
    (ho : Open s rs) (hnew : s.peerSeq ≤ h.header.messageSeq) (hroom : s.rx.length < s.cfg.maxRx)
    (huniq : ∀ x ∈ l, pos x = pos h → x = h) :
    ∃ l' rx' t, insertIncoming env rs s = (.ok (), { s with rx := rx', tick := t }) ∧ Queue l' rx'
      ∧ l'.Pairwise Before ∧ ∀ x, x ∈ l' ↔ x = h ∨ x ∈ l := by
  obtain ⟨r, rfl, hr⟩ := hc
  have hcar : Carries h [r] := ⟨r, rfl, hr⟩
  unfold insertIncoming
  rw [if_neg (by omega)]
  dsimp only
  rw [hr]
  dsimp only
  have hres : maybeResend env [r] s = (.ok (), s) := by
    unfold maybeResend firstDupeSeq
    simp only [List.findSome?, Rx.firstDupe, hr, List.head?_cons, Option.bind_some]
    unfold dupeTriggersResend
    split
    · rename_i d hd
      rw [if_neg]
      rintro ⟨h1, _⟩
      repeat' split at hd
      all_goals first
        | (cases hd; done)
        | (have := Option.some.inj hd; omega)
        | skip
      all_goals simp_all
      all_goals omega
    · rfl
  simp only [M.bind, hres, M.andThen]
  unfold insertHandshakeTail
  rw [if_neg (by omega), if_neg, if_neg (by rw [ho.release]; simp)]
  rotate_left
  · rintro ⟨h1, h2⟩; exact ho.epoch r (by simp) h1 h2
  unfold insertHs
  dsimp only
  have hkeys : (s.rx.map fun item => cmpPair (hsKey item) (hsKey [r])) = l.map fun x => cmpPair (pos x) (pos h) := by
    rw [hsKey_carries hcar]
    have := congrArg (List.map fun k => cmpPair k (pos h)) hq.keys
    simpa [List.map_map, Function.comp_def] using this
  have hso := hse s.tick (l.map fun x => cmpPair (pos x) (pos h))
  rw [hkeys]
  cases hf : env.search s.tick (l.map fun x => cmpPair (pos x) (pos h)) with
  | at_ i =>
    rw [hf] at hso
    dsimp only at hso ⊢
    refine ⟨l, s.rx, _, rfl, hq, hs, ?_⟩
    intro x
    constructor
    · exact Or.inr
    · rintro (rfl | hx)
      · rw [List.getElem?_map] at hso
        obtain ⟨y, hy, hyc⟩ := Option.map_eq_some_iff.1 hso
        have hm := List.mem_of_getElem? hy
        rw [← huniq y hm (cmp_eq.1 hyc)]
        exact hm
      · exact hx
  | insertAt i =>
    rw [hf] at hso
    dsimp only at hso ⊢
    obtain ⟨_, hso⟩ := hso
    have hpw : (l.map fun x => cmpPair (pos x) (pos h)).Pairwise (fun a b => a.ctorIdx ≤ b.ctorIdx) := by
      rw [List.pairwise_map]
      refine hs.imp ?_
      intro a b hab
      cases ha : cmpPair (pos a) (pos h) with
      | lt => exact Nat.zero_le _
      | eq =>
        have : cmpPair (pos b) (pos h) = .gt := by
          rw [← cmp_eq.1 ha]; exact cmp_gt.2 hab
        rw [this]; decide
      | gt =>
        have : cmpPair (pos b) (pos h) = .gt := cmp_gt.2 ((cmp_gt.1 ha).trans hab)
        rw [this]; exact Nat.le_refl _
    obtain ⟨h1, h2⟩ := hso hpw
    rw [← List.map_take, ] at h1
    rw [← List.map_drop] at h2
    obtain ⟨q1, q2⟩ := hq.takeDrop i
    refine ⟨l.take i ++ h :: l.drop i, _, _, rfl, q1.append (.cons hcar q2), ?_, ?_⟩
    · rw [List.pairwise_append, List.pairwise_cons]
      refine ⟨hs.sublist (List.take_sublist ..), ⟨?_, hs.sublist (List.drop_sublist ..)⟩, ?_⟩
      · intro y hy
        exact cmp_gt.1 (h2 _ (List.mem_map_of_mem hy))
      · intro a ha b hb
        have hah := cmp_lt.1 (h1 _ (List.mem_map_of_mem ha))
        rcases List.mem_cons.1 hb with rfl | hb
        · exact hah
        · exact hah.trans (cmp_gt.1 (h2 _ (List.mem_map_of_mem hb)))
    · intro x
      have : x ∈ l ↔ x ∈ l.take i ∨ x ∈ l.drop i := by
        rw [← List.mem_append, List.take_append_drop]
      rw [this, List.mem_append, List.mem_cons]
      exact ⟨fun | .inl h => .inr (.inl h) | .inr (.inl h) => .inl h | .inr (.inr h) => .inr (.inr h),
        fun | .inr (.inl h) => .inl h | .inl h => .inr (.inl h) | .inr (.inr h) => .inr (.inr h)⟩

theorem sorted_length {l m : List Hs} (hl : l.Pairwise Before) (hm : m.Pairwise Before)
    (h : ∀ x ∈ l, x ∈ m) : l.length ≤ m.length := by
  induction m generalizing l with
  | nil =>
    cases l with
    | nil => exact Nat.le_refl _
    | cons a l => exact absurd (h a (by simp)) (by simp)
  | cons b m ih =>
    cases l with
    | nil => exact Nat.zero_le _
    | cons a l =>
      rw [List.pairwise_cons] at hl hm
      refine Nat.succ_le_succ (ih hl.2 hm.2 ?_)
      intro x hx
      rcases List.mem_cons.1 (h x (by simp [hx])) with rfl | hx'
      · rcases List.mem_cons.1 (h a (by simp)) with rfl | ha
        · exact absurd (hl.1 _ hx) Before.irrefl
        · exact absurd ((hl.1 _ hx).trans (hm.1 _ ha)) Before.irrefl
      · exact hx'

theorem pos_inj {fl : List Hs} (hs : fl.Pairwise Before) {x y : Hs} (hx : x ∈ fl) (hy : y ∈ fl)
    (h : pos x = pos y) : x = y := by
  induction fl with
  | nil => cases hx
  | cons a fl ih =>
    rw [List.pairwise_cons] at hs
    have hno : ∀ z ∈ fl, pos a ≠ pos z := by
      intro z hz he
      have := cmp_lt.2 (hs.1 z hz)
      rw [cmp_eq.2 he] at this
      cases this
    rcases List.mem_cons.1 hx with hx1 | hx1 <;> rcases List.mem_cons.1 hy with hy1 | hy1
    · rw [hx1, hy1]
    · exact absurd (hx1 ▸ h) (hno y hy1)
    · exact absurd (hy1 ▸ h).symm (hno x hx1)
    · exact ih hs.2 hx1 hy1

/-- Parsed datagrams arrive one after the other. -/
def arrivals (env : Env) : List (List Rx) → E Unit
  | [] => M.pure ()
  | rs :: rest => M.bind (insertIncoming env rs) fun _ => arrivals env rest

theorem arrivals_queue {env : Env} (hse : SearchOk env.search) {fl : List Hs} (hfl : fl.Pairwise Before)
    (ds : List (List Rx)) : ∀ {s : Eng} {l : List Hs}, Queue l s.rx → l.Pairwise Before → (∀ x ∈ l, x ∈ fl) →
      fl.length < s.cfg.maxRx → (∀ h ∈ fl, s.peerSeq ≤ h.header.messageSeq) →
      (∀ rs ∈ ds, Open s rs ∧ ∃ h ∈ fl, Carries h rs) →
      ∃ l' rx' t, arrivals env ds s = (.ok (), { s with rx := rx', tick := t }) ∧ Queue l' rx'
        ∧ l'.Pairwise Before ∧ ∀ x, x ∈ l' ↔ x ∈ l ∨ ∃ rs ∈ ds, Carries x rs := by
  induction ds with
  | nil =>
    intro s l hq hl _ _ _ _
    exact ⟨l, s.rx, s.tick, rfl, hq, hl, by simp⟩
  | cons rs ds ih =>
    intro s l hq hl hsub hroom hnew hds
    obtain ⟨ho, h, hh, hc⟩ := hds rs (by simp)
    have hlen : s.rx.length < s.cfg.maxRx := by
      rw [hq.length]
      exact Nat.lt_of_le_of_lt (sorted_length hl hfl hsub) hroom
    obtain ⟨l1, rx1, t1, e1, q1, p1, m1⟩ := insert_one (env := env) hse hq hl hc ho (hnew h hh) hlen
      (fun x hx he => pos_inj hfl (hsub x hx) hh he)
    obtain ⟨l2, rx2, t2, e2, q2, p2, m2⟩ := ih (s := { s with rx := rx1, tick := t1 }) q1 p1
      (fun x hx => by
        rcases (m1 x).1 hx with rfl | hx
        · exact hh
        · exact hsub x hx) hroom hnew
      (fun r hr => ⟨⟨(hds r (by simp [hr])).1.release, (hds r (by simp [hr])).1.epoch⟩,
        (hds r (by simp [hr])).2⟩)
    refine ⟨l2, rx2, t2, ?_, q2, p2, ?_⟩
    · unfold arrivals
      simp only [M.bind, e1, M.andThen, e2]
    · intro x
      rw [m2, m1]
      constructor
      · rintro ((rfl | hx) | ⟨r, hr, hx⟩)
        · exact Or.inr ⟨rs, by simp, hc⟩
        · exact Or.inl hx
        · exact Or.inr ⟨r, by simp [hr], hx⟩
      · rintro (hx | ⟨r, hr, hx⟩)
        · exact Or.inl (Or.inr hx)
        · rcases List.mem_cons.1 hr with rfl | hr
          · obtain ⟨r1, e1, e2⟩ := hc
            obtain ⟨r2, e3, e4⟩ := hx
            rw [e1] at e3
            cases e3
            rw [e2] at e4
            exact Or.inl (Or.inl (by injection e4 with e _; exact e.symm))
          · exact Or.inr ⟨r, hr, hx⟩

/-- A handshake message in fragments. -/
structure Msg where
  t : UInt8
  body : Bytes
  cut : List Hs

/-- The messages are numbered from `p`, each is properly cut, into at most 50 pieces. -/
def Flight : Nat → List Msg → Prop
  | _, [] => True
  | p, m :: rest => Cut m.t p m.body 0 m.cut ∧ m.cut ≠ [] ∧ m.cut.length ≤ 50 ∧ m.cut.Pairwise Before
      ∧ Flight (p + 1) rest

theorem Flight.ge {ms : List Msg} : ∀ {p : Nat}, Flight p ms → ∀ h ∈ ms.flatMap (·.cut),
    p ≤ h.header.messageSeq := by
  induction ms with
  | nil => intro p _ h hm; cases hm
  | cons m ms ih =>
    intro p hf h hm
    rw [List.flatMap_cons, List.mem_append] at hm
    rcases hm with hm | hm
    · rw [(hf.1.mem h hm).2.1]; exact Nat.le_refl _
    · have := ih hf.2.2.2.2 h hm; omega

theorem Flight.sorted {ms : List Msg} : ∀ {p : Nat}, Flight p ms → (ms.flatMap (·.cut)).Pairwise Before := by
  induction ms with
  | nil => intro p _; exact .nil
  | cons m ms ih =>
    intro p hf
    rw [List.flatMap_cons, List.pairwise_append]
    refine ⟨hf.2.2.2.1, ih hf.2.2.2.2, ?_⟩
    intro a ha b hb
    refine Or.inl ?_
    have := hf.2.2.2.2.ge b hb
    rw [(hf.1.mem a ha).2.1]; omega

/-- Ask for the messages of the given types, one after the other. -/
def consumeAll (env : Env) : List UInt8 → E (List (Option Body))
  | [] => M.pure []
  | t :: rest => M.bind (nextHandshake env t) fun b => M.bind (consumeAll env rest) fun bs => M.pure (b :: bs)

def setHandled (rs : List Rx) : List Rx :=
  rs.map fun r => { r with hss := r.hss.map fun h => { h with handled := true } }

theorem markQueue_zero {st : Bool} {l : List Hs} {rx : List (List Rx)} (h : Queue l rx)
    (hl : ∀ x ∈ l, x.handled = false ∨ st = true) : markQueue st 0 rx = rx := by
  induction h generalizing st with
  | nil => rfl
  | cons hc _ ih =>
    rename_i h l rs rx q
    obtain ⟨r, rfl, hr⟩ := hc
    have hh : (!st && h.handled) = false := by
      rcases hl h (by simp) with e | e <;> simp [e]
    simp only [markQueue, markRecs, hr, markHss, hh]
    have := ih (st := true) (by simp)
    simp only [Bool.false_eq_true, if_false, this]
    rw [← hr]

theorem markQueue_fresh {st : Bool} {l m : List Hs} {ra rb : List (List Rx)} (h : Queue l ra) (h' : Queue m rb)
    (hl : ∀ x ∈ l, x.handled = false) (hm : ∀ x ∈ m, x.handled = false) :
    markQueue st l.length (ra ++ rb) = ra.map setHandled ++ rb := by
  induction h generalizing st with
  | nil => exact markQueue_zero h' (fun x hx => Or.inl (hm x hx))
  | cons hc _ ih =>
    rename_i h l rs rx q
    obtain ⟨r, rfl, hr⟩ := hc
    have hh : h.handled = false := hl h (by simp)
    simp only [List.cons_append, List.length_cons, markQueue, markRecs, hr, markHss, hh, Bool.and_false,
      Bool.false_eq_true, if_false]
    rw [ih (fun x hx => hl x (by simp [hx]))]
    simp [setHandled, hr]

theorem markQueue_skip {d : List Hs} {ro ry : List (List Rx)} (n : Nat) (h : Queue d ro)
    (hd : ∀ x ∈ d, x.handled = true) : markQueue false n (ro ++ ry) = ro ++ markQueue false n ry := by
  induction h with
  | nil => rfl
  | cons hc _ ih =>
    rename_i h l rs rx q
    obtain ⟨r, rfl, hr⟩ := hc
    have hh : h.handled = true := hd h (by simp)
    simp only [List.cons_append, markQueue, markRecs, hr, markHss, hh, Bool.not_false, Bool.and_true, if_true]
    rw [ih (fun x hx => hd x (by simp [hx])), ← hr]

theorem Queue.setHandled {l : List Hs} {rx : List (List Rx)} (h : Queue l rx) :
    Queue (l.map fun x => { x with handled := true }) (rx.map Frag12.setHandled) := by
  induction h with
  | nil => exact .nil
  | cons hc _ ih =>
    obtain ⟨r, rfl, hr⟩ := hc
    refine .cons ⟨_, rfl, ?_⟩ ih
    simp [hr]

theorem Queue.handled {l : List Hs} {rx : List (List Rx)} (h : Queue l rx) (hl : ∀ x ∈ l, x.handled = true) :
    ∀ r ∈ rx.flatten, r.isHandled = true := by
  induction h with
  | nil => intro r hr; cases hr
  | cons hc _ ih =>
    obtain ⟨r, rfl, hr⟩ := hc
    intro x hx
    rw [List.flatten_cons, List.mem_append] at hx
    rcases hx with hx | hx
    · rw [List.mem_singleton.1 hx]
      simp [Rx.isHandled, hr, hl]
    · exact ih (fun y hy => hl y (by simp [hy])) x hx

theorem consume_flight {env : Env} (ms : List Msg) : ∀ {s : Eng} {d : List Hs} {ro ry : List (List Rx)},
    Flight s.peerSeq ms → s.peerSeq + ms.length ≤ 65535 → s.rx = ro ++ ry → Queue d ro →
    (∀ x ∈ d, x.handled = true) → Queue (ms.flatMap (·.cut)) ry →
    (∀ m ∈ ms, ∃ b, parseBody env m.t s.suite m.body = some ([], b)) →
    ∃ bs s', consumeAll env (ms.map (·.t)) s = (.ok bs, s') ∧ (∀ b ∈ bs, b ≠ none) ∧ bs.length = ms.length
      ∧ s'.peerSeq = s.peerSeq + ms.length
      ∧ s'.log = ((ms.zipIdx s.peerSeq).map fun x => Ev.consumed x.2 x.1.t x.1.body).reverse ++ s.log
      ∧ s'.transcript = s.transcript
          ++ ((ms.zipIdx s.peerSeq).map fun x => transcriptOf x.1.t x.1.body.length x.2 x.1.body).flatten := by
  induction ms with
  | nil =>
    intro s d ro ry _ _ _ _ _ _ _
    exact ⟨[], s, rfl, by simp, rfl, rfl, by simp, by simp⟩
  | cons m ms ih =>
    intro s d ro ry hf hlt hrx hqd hd hq hp
    obtain ⟨h1, h2, h3, h4, h5⟩ := hf
    rw [List.flatMap_cons] at hq
    obtain ⟨ra, rb, rfl, qa, qb⟩ := hq.split
    obtain ⟨b, hb⟩ := hp m (by simp)
    have hfresh : ∀ x ∈ m.cut, x.handled = false := fun x hx => (h1.mem x hx).2.2.2.1
    have hfr2 : ∀ {ms : List Msg} {p : Nat}, Flight p ms → ∀ x ∈ ms.flatMap (·.cut), x.handled = false := by
      intro ms
      induction ms with
      | nil => intro p _ x hx; cases hx
      | cons m ms ih =>
        intro p hf x hx
        rw [List.flatMap_cons, List.mem_append] at hx
        rcases hx with hx | hx
        · exact (hf.1.mem x hx).2.2.2.1
        · exact ih hf.2.2.2.2 x hx
    have hh : Holds s.peerSeq m.cut s.rx := by
      refine ⟨ro.flatten, ra.flatten, rb.flatten, [], [], by rw [hrx]; simp, hqd.handled hd, ?_, ?_, by simp,
        by simp, ?_⟩
      · rw [qa.flat.2]; exact h3
      · rw [qa.flat.1]; simp
      · rw [qb.flat.1]
        intro x hx
        have := h5.ge x hx
        omega
    have hlen : (m :: ms).length = ms.length + 1 := rfl
    obtain ⟨_, e⟩ := receiver_reassembles h1 h2 h3 (by omega) hh hb
    have hmq : markQueue false m.cut.length s.rx = (ro ++ ra.map setHandled) ++ rb := by
      rw [hrx, markQueue_skip _ hqd hd, markQueue_fresh qa qb hfresh (hfr2 h5), List.append_assoc]
    rw [hmq] at e
    generalize hs1 : ({ s with
      rx := (ro ++ ra.map setHandled) ++ rb
      peerSeq := s.peerSeq + 1
      transcript := s.transcript ++ transcriptOf m.t m.body.length s.peerSeq m.body
      log := .consumed s.peerSeq m.t m.body :: s.log } : Eng) = s1 at e
    obtain ⟨bs, s', e', hbs, hbl, hpeer, hlog, htr⟩ := ih (s := s1) (ro := ro ++ ra.map setHandled) (ry := rb)
      (d := d ++ m.cut.map fun x => { x with handled := true })
      (by rw [← hs1]; exact h5) (by rw [← hs1]; dsimp only; omega) (by rw [← hs1])
      (hqd.append qa.setHandled)
      (by intro x hx
          rcases List.mem_append.1 hx with hx | hx
          · exact hd x hx
          · obtain ⟨y, _, rfl⟩ := List.mem_map.1 hx; rfl)
      qb (by rw [← hs1]; exact fun x hx => hp x (by simp [hx]))
    refine ⟨some b :: bs, s', ?_, ?_, by simp [hbl], ?_, ?_, ?_⟩
    · rw [List.map_cons, consumeAll]
      simp only [M.bind, e, M.andThen, e', M.pure]
    · intro x hx
      rcases List.mem_cons.1 hx with rfl | hx
      · simp
      · exact hbs x hx
    · rw [hpeer, ← hs1, hlen]; dsimp only; omega
    · rw [hlog, ← hs1]; simp
    · rw [htr, ← hs1]; simp

/-- **C14 and C12 (DTLS 1.2).** The fragments of a flight arrive, one per datagram, in any order and any
number of times each, but each message always cut the same way. Then asking for the messages consumes all of
them, in order, with exactly their bodies.
Missing: datagrams with several fragments (`packing_stalls`), different cuts of the same message
(`refragmented_stalls`), messages in more than 50 fragments (`too_many_fragments`). -/
theorem flight_consumed_partial {env : Env} (hse : SearchOk env.search) {s : Eng} {ms : List Msg}
    {ds : List (List Rx)} (hempty : s.rx = []) (hf : Flight s.peerSeq ms)
    (hlt : s.peerSeq + ms.length ≤ 65535) (hroom : (ms.flatMap (·.cut)).length < s.cfg.maxRx)
    (hall : ∀ h ∈ ms.flatMap (·.cut), ∃ rs ∈ ds, Carries h rs)
    (honly : ∀ rs ∈ ds, Open s rs ∧ ∃ h ∈ ms.flatMap (·.cut), Carries h rs)
    (hp : ∀ m ∈ ms, ∃ b, parseBody env m.t s.suite m.body = some ([], b)) :
    ∃ s1 bs s', arrivals env ds s = (.ok (), s1) ∧ consumeAll env (ms.map (·.t)) s1 = (.ok bs, s')
      ∧ (∀ b ∈ bs, b ≠ none) ∧ bs.length = ms.length
      ∧ s'.log = ((ms.zipIdx s.peerSeq).map fun x => Ev.consumed x.2 x.1.t x.1.body).reverse ++ s.log
      ∧ s'.transcript = s.transcript
          ++ ((ms.zipIdx s.peerSeq).map fun x => transcriptOf x.1.t x.1.body.length x.2 x.1.body).flatten := by
  obtain ⟨l, rx, t, e, hq, hl, hm⟩ := arrivals_queue hse hf.sorted ds (s := s) (l := [])
    (by rw [hempty]; exact .nil) .nil (by simp) hroom hf.ge honly
  have hleq : l = ms.flatMap (·.cut) := by
    refine sorted_ext hl hf.sorted ?_
    intro x
    rw [hm]
    constructor
    · rintro (hx | ⟨rs, hrs, hx⟩)
      · cases hx
      · obtain ⟨_, h, hh, hc⟩ := honly rs hrs
        obtain ⟨r1, e1, e2⟩ := hc
        obtain ⟨r2, e3, e4⟩ := hx
        rw [e1] at e3; cases e3
        rw [e2] at e4
        injection e4 with e _
        rw [← e]; exact hh
    · exact fun hx => Or.inr (hall x hx)
  rw [hleq] at hq
  obtain ⟨bs, s', e', h1, h2, _, h4, h5⟩ := consume_flight (env := env) ms (s := { s with rx := rx, tick := t })
    (d := []) (ro := []) (ry := rx) hf hlt rfl .nil (by simp) hq hp
  exact ⟨_, bs, s', e, e', h1, h2, h4, h5⟩

/-! ### A flight meeting the hypotheses -/

def cutDec (t : UInt8) (q : Nat) (body : Bytes) : (off : Nat) → (hs : List Hs) → Decidable (Cut t q body off hs)
  | off, [] => inferInstanceAs (Decidable (off = body.length))
  | off, h :: rest =>
    have := cutDec t q body (off + h.body.length) rest
    inferInstanceAs (Decidable (_ ∧ _ ∧ _ ∧ Cut t q body (off + h.body.length) rest))

instance : Decidable (Cut t q body off hs) := cutDec t q body off hs
instance (a b : Hs) : Decidable (Before a b) := by unfold Before; infer_instance

def piece (t : UInt8) (q : Nat) (body : Bytes) (off n : Nat) : Hs :=
  ⟨⟨t, body.length, q, off, n⟩, (body.drop off).take n, false⟩

/-- A certificate in two pieces followed by an empty ServerHelloDone. -/
def flight : List Msg :=
  [⟨mtCertificate, longBody 8, [piece mtCertificate 0 (longBody 8) 0 4, piece mtCertificate 0 (longBody 8) 4 4]⟩,
   ⟨mtServerHelloDone, [], [piece mtServerHelloDone 1 [] 0 0]⟩]

def rxOf (n : Nat) (h : Hs) : Rx :=
  { rcd := { ctype := ctHandshake, version := verDtls12, epoch := 0, seq := n, length := 0, fragment := [] }
    buffer := [], hss := [h], handled := false, opened := false }

example : ∃ s1 bs s', arrivals Demo.certEnv.toEnv
      ((flight.flatMap (·.cut)).reverse ++ flight.flatMap (·.cut) |>.zipIdx.map fun (h, n) => [rxOf n h]) receiver
        = (.ok (), s1)
      ∧ consumeAll Demo.certEnv.toEnv [mtCertificate, mtServerHelloDone] s1 = (.ok bs, s')
      ∧ s'.log = [.consumed 1 mtServerHelloDone [], .consumed 0 mtCertificate (longBody 8)] := by
  obtain ⟨s1, bs, s', h1, h2, _, _, h5, _⟩ := flight_consumed_partial (env := Demo.certEnv.toEnv) (s := receiver)
    (ms := flight)
    (ds := ((flight.flatMap (·.cut)).reverse ++ flight.flatMap (·.cut) |>.zipIdx.map fun (h, n) => [rxOf n h]))
    Recv12.search_ok_demo rfl
    (show Cut _ _ _ _ _ ∧ _ ∧ _ ∧ _ ∧ Cut _ _ _ _ _ ∧ _ ∧ _ ∧ _ ∧ True by decide) (by decide) (by decide)
    (by
      have h : ∀ h ∈ flight.flatMap (·.cut), ∃ rs ∈
          ((flight.flatMap (·.cut)).reverse ++ flight.flatMap (·.cut) |>.zipIdx.map fun (h, n) => [rxOf n h]),
          rs.map (·.hss) = [[h]] := by decide
      intro x hx
      obtain ⟨rs, hrs, e⟩ := h x hx
      refine ⟨rs, hrs, ?_⟩
      cases rs with
      | nil => cases e
      | cons r l =>
        cases l with
        | nil => exact ⟨r, rfl, by simpa using e⟩
        | cons _ _ => simp at e)
    (by
      intro rs hrs
      refine ⟨⟨rfl, fun _ _ h => by cases h⟩, ?_⟩
      obtain ⟨⟨h, n⟩, hm, rfl⟩ := List.mem_map.1 hrs
      have : h ∈ (flight.flatMap (·.cut)).reverse ++ flight.flatMap (·.cut) :=
        (List.mem_zipIdx' hm).2 ▸ List.getElem_mem _
      refine ⟨h, ?_, _, rfl, rfl⟩
      rcases List.mem_append.1 this with h | h
      · exact List.mem_reverse.1 h
      · exact h)
    (by
      intro m hm
      rcases List.mem_cons.1 hm with rfl | hm
      · exact ⟨_, rfl⟩
      · rw [List.mem_singleton.1 hm]; exact ⟨_, rfl⟩)
  exact ⟨s1, bs, s', h1, h2, h5⟩

end Verif.Props.Frag12

import Verif.Lemmas.Forged12
/-!
# Parsing a datagram does not fail, except for records that do not open during the handshake (DTLS 1.2)
-/
namespace Verif.E12
open Verif Wire Window Timer Aead M

theorem parsedRecord_total (sl : Bytes) (b : Bool) : parsedRecord sl 0 b ≠ .panic := by
  intro h
  unfold parsedRecord PRes.bind at h
  split at h <;> first | cases h | skip
  rename_i g
  exact parse12_total _ g

/-- The plaintext put back under the record header parses. -/
theorem opened_parses {sl rest : Bytes} {r : Rec12} (hwf : Props.Wire.WF12 r) (hsl : sl = serialize12 r ++ rest)
    (hs : sl.length < 13 + 65536) (n : Nat) (hn : 13 + n ≤ sl.length) (plain : Bytes)
    (hp : plain.length ≤ (sl.drop (13 + n)).length) :
    ∃ rest' rx, parsedRecord (openedBuffer sl n plain) n true = .ok rest' rx := by
  simp only [List.length_drop] at hp
  have hbuf : openedBuffer sl n plain =
      r.ctype :: (beBytes 2 r.version ++ beBytes 2 r.epoch ++ beBytes 6 r.seq)
        ++ beBytes 2 plain.length ++ (sl.drop 13).take n ++ plain
        ++ (sl.drop (13 + n)).drop plain.length := by
    unfold openedBuffer
    congr 4
    rw [hsl]
    unfold serialize12
    have : (r.ctype :: (beBytes 2 r.version ++ beBytes 2 r.epoch ++ beBytes 6 r.seq)).length = 11 := by
      simp
    rw [show r.ctype :: (beBytes 2 r.version ++ beBytes 2 r.epoch ++ beBytes 6 r.seq
        ++ beBytes 2 r.length ++ r.fragment) ++ rest =
      (r.ctype :: (beBytes 2 r.version ++ beBytes 2 r.epoch ++ beBytes 6 r.seq)) ++
        (beBytes 2 r.length ++ r.fragment ++ rest) by simp]
    exact List.take_left' this
  have hparse := parse12_opened hwf ((sl.drop (13 + n)).drop plain.length)
    ((sl.drop 13).take n) plain n (by simp; omega) (by omega)
  rw [← hbuf] at hparse
  unfold parsedRecord
  rw [hparse]
  exact ⟨_, _, rfl⟩

/-- What is needed for opening records: keys of the right lengths. -/
def CanOpen (s : Eng) : Prop := s.peerEnc = true → KeySane s ∧ s.keys ≠ none

theorem RecvFrame.canOpen {s s' : Eng} (h : RecvFrame s s') (hc : CanOpen s) : CanOpen s' := by
  obtain ⟨_, _, _, _, _, rfl⟩ := h
  exact fun hp => ⟨⟨(hc hp).1.expl, (hc hp).1.prot, (hc hp).1.iv⟩, (hc hp).2⟩

theorem recordParse_quiet {env : Env} (hd : DecShort env) {s : Eng} (hc : CanOpen s) {sl : Bytes}
    (hs : sl.length < 13 + 65536) {f : Fault} {s' : Eng} (h : recordParse env sl s = (.fail f, s')) :
    f = .fatal .crypto ∧ s.peerEnc = true ∧ s.release = false := by
  unfold recordParse at h
  cases hpr : parsedRecord sl 0 false with
  | ok rest rx =>
    obtain ⟨h12, _⟩ := parsedRecord_ok hpr
    obtain ⟨hwf, hsl⟩ := Props.Wire.record12_exact _ _ _ h12
    simp only [hpr] at h
    by_cases h0 : rx.rcd.epoch = 0 ∨ s.peerEnc = false
    · rw [if_pos h0] at h; cases h
    rw [if_neg h0] at h
    have hp : s.peerEnc = true := by
      cases g : s.peerEnc with
      | true => rfl
      | false => exact absurd (.inr g) h0
    obtain ⟨hk, hk2⟩ := hc hp
    refine ⟨?_, hp, ?_⟩
    all_goals
      unfold openRecord at h
      split at h; · cases h
      split at h; · cases h
      rename_i _ hm
      split at h
      · rename_i g
        unfold Eng.peerKey at g
        simp at g
        exact absurd g hk2
      rename_i key iv hpk
      have hll : 13 + rx.rcd.length ≤ sl.length := by
        have : rx.rcd.length = rx.rcd.fragment.length := hwf.2.2.2.1
        rw [hsl]; simp [serialize12]; omega
      have := hk.prot
      split at h
      · omega
      split at h
      · rename_i g
        obtain ⟨n, g'⟩ := hk.nonce hpk ((sl.drop 13).take s.explicitLen) (by simp; omega) rx.rcd.epoch rx.rcd.seq
        rw [g] at g'; cases g'
      dsimp only at h
      split at h
      · split at h
        · cases h
        · cases h; first | rfl | simpa using ‹¬ s.release = true›
      · rename_i hdec
        have := hd _ _ _ _ _ hdec
        obtain ⟨_, _, g⟩ := opened_parses hwf hsl hs s.explicitLen (by omega) _ this
        rw [g] at h
        cases h
  | panic => exact absurd hpr (parsedRecord_total _ _)
  | error => simp [hpr] at h
  | failure => simp [hpr] at h

/-- How parsing the records of a datagram can end. -/
theorem parseSlices_quiet {env : Env} (hd : DecShort env) (sls : List Bytes) (e : SplitEnd)
    (hs : ∀ sl ∈ sls, sl.length < 13 + 65536) (acc : List Rx) (s : Eng) (hc : CanOpen s) :
    ((parseSlices env sls e acc s).1 = .fail .transient) ∨
    ((parseSlices env sls e acc s).1 = .fail (.fatal .crypto) ∧ s.peerEnc = true ∧ s.release = false) ∨
    (∃ rs, (parseSlices env sls e acc s).1 = .ok rs ∧ e = .done) := by
  induction sls generalizing acc s with
  | nil => cases e <;> simp [parseSlices, M.pure, M.transient, M.fail]
  | cons sl sls ih =>
    have hf := recordParse_frame env sl s
    show (M.andThen (recordParse env sl s) _).1 = _ ∨ ((M.andThen (recordParse env sl s) _).1 = _ ∧ _) ∨
      ∃ rs, (M.andThen (recordParse env sl s) _).1 = _ ∧ _
    cases hr : recordParse env sl s with
    | mk o s1 =>
      rw [hr] at hf
      have ih := fun acc => ih (fun x hx => hs x (List.mem_cons_of_mem _ hx)) acc s1 (hf.canOpen hc)
      have hsame : s1.peerEnc = s.peerEnc ∧ s1.release = s.release := by
        obtain ⟨_, _, _, _, _, g⟩ := hf
        have g : s1 = _ := g
        rw [g]; exact ⟨rfl, rfl⟩
      rw [hsame.1, hsame.2] at ih
      cases o with
      | ok o =>
        cases o with
        | none => exact ih acc
        | some rx =>
          simp only [M.andThen]
          split
          · exact .inl rfl
          · exact ih _
      | fail f =>
        obtain ⟨rfl, h2, h3⟩ := recordParse_quiet hd hc (hs sl (List.mem_cons_self ..)) hr
        exact .inr (.inl ⟨rfl, h2, h3⟩)

/-! ## No panics -/

/-- A panic or an endless loop. -/
def Bad {α : Type} : Res α → Prop
  | .fail .panic => True
  | .fail .diverge => True
  | _ => False

theorem bad_fail {α : Type} (f : Fault) : Bad (.fail f : Res α) ↔ f = .panic ∨ f = .diverge := by
  cases f <;> simp [Bad]

/-- Keys to write with, if any, have the right lengths. -/
def CanSeal (s : Eng) : Prop := s.keys ≠ none → KeySane s

theorem sealRecord_panic (env : Env) (c : UInt8) (a : Bool) (f : Bytes) (s : Eng) (hk : CanSeal s)
    (hr : ∀ t, (env.rand t 8).length = 8) : ¬ Bad (sealRecord env c a f s).1 := by
  unfold sealRecord
  split
  · exact id
  rename_i key iv hw
  have hk : KeySane s := hk (by intro h; simp [Eng.writeKey, h] at hw)
  have hi : iv.length + s.explicitLen = 12 := by
    unfold Eng.writeKey at hw
    obtain ⟨k, h1, h2⟩ := Option.map_eq_some_iff.mp hw
    have := hk.iv k h1
    split at h2 <;> (cases h2; omega)
  split
  · exact id
  dsimp only
  split
  · rename_i _ hn
    exfalso
    unfold recordNonce at hn
    split at hn
    · rw [if_pos (by omega)] at hn; cases hn
    · have h8 : s.explicitLen = 8 := by rcases hk.expl with h | h <;> simp_all
      unfold nonceNew explicitNonce at hn
      rw [if_pos h8, if_pos (by have := hr s.tick; omega)] at hn
      cases hn
  · split <;> exact id

theorem createRecord_panic (env : Env) (c : UInt8) (e : Nat) (sv fo : Bool) (f : Bytes) (s : Eng) (hk : CanSeal s)
    (hr : ∀ t, (env.rand t 8).length = 8) : ¬ Bad (createRecord env c e sv fo f s).1 := by
  unfold createRecord
  split
  · exact id
  dsimp only
  split
  · exact id
  split
  · refine sealRecord_panic env c _ f _ ?_ hr
    intro h
    unfold saveEntry at *
    split at h <;> (have := hk h; exact ⟨by split <;> exact this.expl, by split <;> exact this.prot, by split <;> exact this.iv⟩)
  · exact id

theorem SendFrame.canSeal {s s' : Eng} (h : SendFrame s s') (hk : CanSeal s) : CanSeal s' := by
  obtain ⟨_, _, _, _, _, _, _, rfl⟩ := h
  exact fun hp => ⟨(hk hp).expl, (hk hp).prot, (hk hp).iv⟩

theorem resendLoop_panic (env : Env) (l : List Entry) (fo : Bool) (s : Eng) (hk : CanSeal s)
    (hr : ∀ t, (env.rand t 8).length = 8) : ¬ Bad (resendLoop env l fo s).1 := by
  induction l generalizing fo s with
  | nil => exact id
  | cons e l ih =>
    show ¬ Bad (M.andThen (createRecord env e.ctype e.epoch false fo e.fragment s) _).1
    have h1 := createRecord_panic env e.ctype e.epoch false fo e.fragment s hk hr
    have h2 := createRecord_frame env e.ctype e.epoch false fo e.fragment s
    cases hc : createRecord env e.ctype e.epoch false fo e.fragment s with
    | mk o s1 =>
      rw [hc] at h1 h2
      cases o with
      | ok a => exact ih _ _ (h2.canSeal hk)
      | fail f => simpa [M.andThen, bad_fail] using h1

theorem flightResend_panic (env : Env) (s : Eng) (hk : CanSeal s)
    (hr : ∀ t, (env.rand t 8).length = 8) : ¬ Bad (flightResend env s).1 := by
  unfold flightResend
  exact resendLoop_panic env _ _ _ (fun h => ⟨(hk h).expl, (hk h).prot, (hk h).iv⟩) hr

theorem classify_panic (r : Rx) (s : Eng) : ¬ Bad (classify r s).1 := by
  rcases classify_cases r s with h | h | h | ⟨d, h⟩ <;> rw [h] <;> exact id

theorem classifyAll_panic (l acc : List Rx) (s : Eng) : ¬ Bad (classifyAll l acc s).1 := by
  induction l generalizing acc s with
  | nil => exact id
  | cons r l ih =>
    show ¬ Bad (M.andThen (classify r s) _).1
    have h1 := classify_panic r s
    cases hc : classify r s with
    | mk o s1 =>
      rw [hc] at h1
      cases o with
      | ok o => cases o <;> exact ih _ _
      | fail f => simpa [M.andThen, bad_fail] using h1

theorem recordsParse_panic {env : Env} (hd : DecShort env) (p : Bytes) (s : Eng) (hc : CanOpen s) :
    ¬ Bad (recordsParse env p s).1 := by
  show ¬ Bad (M.andThen (parseSlices env (split12 p).1 (split12 p).2 [] s) _).1
  have h1 := parseSlices_quiet hd (split12 p).1 (split12 p).2 (split12_short p) [] s hc
  cases hp : parseSlices env (split12 p).1 (split12 p).2 [] s with
  | mk o s1 =>
    rw [hp] at h1
    cases o with
    | ok rs => exact classifyAll_panic _ _ _
    | fail f =>
      simp only [M.andThen]
      rcases h1 with h | ⟨h, _⟩ | ⟨_, h, _⟩ <;> cases h <;> exact id

/-- Every record opened so far has epoch 1. -/
def EpochOne (log : List Ev) : Prop :=
  ∀ k n a c pl ct ep q, Ev.opened k n a c pl ct ep q ∈ log → ep = 1

/-- Once the peer's encryption is on, the assertion of the receive queue holds: a protected record has
passed the replay check. -/
theorem insertIncoming_panic {env : Env} (hse : SearchOk env.search) (hr : ∀ t, (env.rand t 8).length = 8)
    {s0 s : Eng} {rs : List Rx} (hp : s0.peerEnc = true) (hi : RxInv s0) (hb : Batch s0 s rs) (hk : CanSeal s)
    (hx : EpochOne s.log) : ¬ Bad (insertIncoming env rs s).1 := by
  obtain ⟨es, rp, cf, cr, hs, h1, h2, h3, h4⟩ := hb
  unfold insertIncoming
  split
  · exact id
  split
  · exact id
  rename_i r rest
  split
  · show ¬ Bad (M.andThen (maybeResend env (r :: rest) s) _).1
    have g : ¬ Bad (maybeResend env (r :: rest) s).1 := by
      unfold maybeResend
      split
      · split
        · exact flightResend_panic env s hk hr
        · exact id
      · exact id
    cases hc : maybeResend env (r :: rest) s with
    | mk o s1 =>
      rw [hc] at g
      cases o with
      | ok a =>
        simp only [M.andThen]
        unfold insertHandshakeTail insertHs
        dsimp only
        repeat' split
        all_goals exact id
      | fail f => simpa [M.andThen, bad_fail] using g
  · unfold insertNonHandshake
    split
    · exact id
    have hpe : s.peerEnc = true := by rw [hs]; exact hp
    rw [if_pos hpe]
    unfold insertBySeq
    dsimp only
    have hkey : seqKey ((r :: rest).map markStaleHs) = (r.rcd.epoch, r.rcd.seq) := by
      simp only [List.map_cons, seqKey, List.head?_cons]
      unfold markStaleHs
      repeat' split
      all_goals rfl
    rw [hkey]
    split
    · exact id
    rename_i i hat
    split
    · exact id
    rename_i he
    exfalso
    have g := hse s.tick (s.rx.map fun item => cmpPair (seqKey item) (r.rcd.epoch, r.rcd.seq))
    rw [hat] at g
    simp only at g he
    rw [List.getElem?_map] at g
    obtain ⟨item, g1, g2⟩ := Option.map_eq_some_iff.mp g
    have hmem : item ∈ s.rx := List.mem_of_getElem? g1
    have hro := h3 r (List.mem_cons_self ..)
    have hop := hro.opened (hro.sealed hp (by omega))
    have hep : r.rcd.epoch = 1 := by
      obtain ⟨_, _, _, _, _, _, h⟩ := hop
      have hlog : s.log = es ++ s0.log := by rw [hs]
      exact hx _ _ _ _ _ _ _ _ (hlog ▸ List.mem_append_left s0.log h)
    cases item with
    | nil =>
      simp only [seqKey, List.head?_nil, cmpPair, hep] at g2
      cases hq : r.rcd.seq <;> simp [hq] at g2 <;> exact absurd g2 (by decide)
    | cons x xs =>
      simp only [seqKey, List.head?_cons, cmpPair] at g2
      have g3 : x.rcd.epoch = r.rcd.epoch ∧ x.rcd.seq = r.rcd.seq := by
        rw [Ordering.then_eq_eq] at g2
        exact ⟨Nat.compare_eq_eq.mp g2.1, Nat.compare_eq_eq.mp g2.2⟩
      have hxin : x ∈ s0.rx.flatten := by
        rw [List.mem_flatten]
        refine ⟨x :: xs, ?_, List.mem_cons_self ..⟩
        have : s.rx = s0.rx := by rw [hs]
        rw [← this]; exact hmem
      have hxo := hi.recs x hxin
      have hxs := (hxo.opened (hxo.sealed hp (by omega))).seq
      have hrs := hop.seq
      have := (h2 _ hi.win hi.nodup).2
      rw [List.nodup_append] at this
      exact this.2.2 _ hrs _ hxs g3.2.symm

theorem parsePacket_panic {env : Env} (hd : DecShort env) (hse : SearchOk env.search)
    (hr : ∀ t, (env.rand t 8).length = 8) (p : Bytes) {s : Eng} (hp : s.peerEnc = true) (hi : RxInv s)
    (hk : s.keys ≠ none) (hs : KeySane s) (hx : EpochOne (parsePacket env p s).2.log) :
    ¬ Bad (parsePacket env p s).1 := by
  have e0 : parsePacket env p s = M.andThen (recordsParse env p s)
      fun rs => match rs with | [] => M.pure () | _ => insertIncoming env rs := rfl
  have h1 := recordsParse_panic hd p s fun _ => ⟨hs, hk⟩
  have h2 := recordsParse_batch hd p s
  rw [e0] at hx ⊢
  cases hc : recordsParse env p s with
  | mk o s1 =>
    rw [hc] at h1 hx
    cases o with
    | fail f => simpa [M.andThen, bad_fail] using h1
    | ok rs =>
      have hb : Batch s s1 rs := wp_ok h2 hc
      simp only [M.andThen] at hx ⊢
      cases rs with
      | nil => exact id
      | cons r rest =>
        simp only at hx ⊢
        have hb' := hb
        obtain ⟨es, rp, cf, cr, g, _⟩ := hb
        refine insertIncoming_panic hse hr hp hi hb' ?_ ?_
        · intro _
          rw [g]; exact ⟨hs.expl, hs.prot, hs.iv⟩
        · intro k n a c pl ct ep q hm
          obtain ⟨_, _, _, _, _, _, _, _, _, es', _, _, g'⟩ := insertIncoming_arrive env (r :: rest) s1
          refine hx k n a c pl ct ep q ?_
          rw [g']
          exact List.mem_append_right _ hm

end Verif.E12

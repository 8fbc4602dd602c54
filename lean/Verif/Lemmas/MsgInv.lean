import Verif.Lemmas.Msg
/-!
# What the pieces of the handshake message parsers accept

The converse of `Verif.Lemmas.Msg`: if a piece is parsed, the input begins with its encoding.
-/
namespace Verif.Msg
open Verif Verif.Wire

theorem beNat_inv {n v : Nat} {i r : Bytes} (h : beNat n i = .ok r v) :
    i = beBytes n v ++ r ∧ v < 256 ^ n := by
  obtain ⟨a, ha, hl, hv⟩ := beNat_ok h
  have h1 : beBytes n v = a := by
    have := beBytes_ofBe a
    rw [hl, hv] at this
    exact this
  refine ⟨by rw [h1]; exact ha, ?_⟩
  have := ofBe_lt a
  rw [hl, hv] at this
  exact this

theorem vec_inv {n : Nat} {i r d : Bytes} (h : vec n i = .ok r d) :
    i = putVec n d ++ r ∧ d.length < 256 ^ n := by
  obtain ⟨r1, len, h1, h2⟩ := bind_ok h
  obtain ⟨e1, hlt⟩ := beNat_inv h1
  obtain ⟨e2, hl⟩ := take_ok h2
  subst hl
  exact ⟨by rw [e1, e2, putVec, List.append_assoc], hlt⟩

theorem idParse_inv {max : Nat} {i r d : Bytes} (h : idParse max i = .ok r d) :
    i = putVec 1 d ++ r ∧ d.length ≤ max ∧ d.length < 256 := by
  obtain ⟨r1, len, h1, h2⟩ := bind_ok h
  obtain ⟨e1, hlt⟩ := beNat_inv h1
  split at h2
  · cases h2
  · next hm =>
    obtain ⟨e2, hl⟩ := take_ok h2
    subst hl
    exact ⟨by rw [e1, e2, putVec, List.append_assoc], by omega, by omega⟩

theorem parseExt_inv {i r : Bytes} {e : Nat × Bytes} (h : parseExt i = .ok r e) :
    i = putExt e ++ r ∧ e.1 < 65536 ∧ e.2.length < 65536 := by
  obtain ⟨r1, t, h1, h⟩ := bind_ok h
  obtain ⟨r2, len, h2, h⟩ := bind_ok h
  obtain ⟨e1, ht⟩ := beNat_inv h1
  obtain ⟨e2, hlt⟩ := beNat_inv h2
  split at h
  · obtain ⟨r3, d, h3, h⟩ := bind_ok h
    obtain ⟨e3, hl⟩ := take_ok h3
    cases h
    subst hl
    exact ⟨by rw [e1, e2, e3, putExt, putVec]; simp, by omega, by simp only; omega⟩
  · next h0 =>
    cases h
    have h0 : len = 0 := by omega
    subst h0
    exact ⟨by rw [e1, e2, putExt, putVec]; simp, by omega, by simp⟩

/-- What `manyLoop` accepts when it uses up its input. -/
theorem manyLoop_inv {α : Type} (cap : Nat) (one : Bytes → PRes α) (put : α → Bytes) (keep : α → Bool)
    (P : α → Prop) (hone : ∀ i r x, one i = .ok r x → i = put x ++ r ∧ P x) :
    ∀ (f : Nat) (acc l : List α) (i : Bytes), acc.length ≤ cap → manyLoop cap one keep f acc i = .ok [] l →
      ∃ xs : List α, i = xs.flatMap put ∧ (∀ x ∈ xs, P x) ∧ l = acc ++ xs.filter keep ∧ l.length ≤ cap := by
  intro f
  induction f with
  | zero =>
    intro acc l i hcap h
    simp only [manyLoop, PRes.ok.injEq] at h
    exact ⟨[], by simp [h.1], by simp, by simp [h.2], by rw [← h.2]; exact hcap⟩
  | succ f ih =>
    intro acc l i hcap h
    unfold manyLoop at h
    split at h
    · simp only [PRes.ok.injEq] at h
      exact ⟨[], by simp [h.1], by simp, by simp [h.2], by rw [← h.2]; exact hcap⟩
    · next hi =>
      split at h
      · simp only [PRes.ok.injEq] at h
        rw [h.1] at hi
        exact absurd rfl hi
      · cases h
      · cases h
      · next i1 o ho =>
        obtain ⟨e1, hp⟩ := hone _ _ _ ho
        split at h
        · cases h
        · split at h
          · next hk =>
            split at h
            · next hlt =>
              obtain ⟨xs, ei, hx, el, hc⟩ := ih _ _ _ (by simp; omega) h
              refine ⟨o :: xs, by rw [e1, ei, List.flatMap_cons], ?_, ?_, hc⟩
              · intro x hm
                rcases List.mem_cons.mp hm with rfl | hm
                · exact hp
                · exact hx x hm
              · rw [el, List.filter_cons, if_pos hk]; simp
            · cases h
          · next hk =>
            obtain ⟨xs, ei, hx, el, hc⟩ := ih _ _ _ hcap h
            refine ⟨o :: xs, by rw [e1, ei, List.flatMap_cons], ?_, ?_, hc⟩
            · intro x hm
              rcases List.mem_cons.mp hm with rfl | hm
              · exact hp
              · exact hx x hm
            · rw [el, List.filter_cons, if_neg hk]

theorem many0_inv {α : Type} {cap : Nat} {one : Bytes → PRes α} (put : α → Bytes) {keep : α → Bool}
    (P : α → Prop) (hone : ∀ i r x, one i = .ok r x → i = put x ++ r ∧ P x) {i : Bytes} {l : List α}
    (h : many0 cap one keep i = .ok [] l) :
    ∃ xs : List α, i = xs.flatMap put ∧ (∀ x ∈ xs, P x) ∧ l = xs.filter keep ∧ l.length ≤ cap := by
  obtain ⟨xs, a, b, c, d⟩ := manyLoop_inv cap one put keep P hone _ _ _ _ (Nat.zero_le _) h
  exact ⟨xs, a, b, by simpa using c, d⟩

theorem many1_inv {α : Type} {cap : Nat} {one : Bytes → PRes α} (put : α → Bytes) {keep : α → Bool}
    (P : α → Prop) (hone : ∀ i r x, one i = .ok r x → i = put x ++ r ∧ P x) {i : Bytes} {l : List α}
    (h : many1 cap one keep i = .ok [] l) :
    ∃ xs : List α, i = xs.flatMap put ∧ (∀ x ∈ xs, P x) ∧ l = xs.filter keep ∧ l.length ≤ cap ∧ l ≠ [] := by
  obtain ⟨r1, l1, h1, h2⟩ := bind_ok h
  split at h2
  · cases h2
  · next hl =>
    cases h2
    obtain ⟨xs, a, b, c, d⟩ := many0_inv put P hone (cap := cap) h1
    exact ⟨xs, a, b, c, d, by simpa using hl⟩

/-- What a hand-written loop accepts. -/
theorem loop_inv {α : Type} (one : Bytes → PRes α) (put : α → Bytes)
    (push : List α → α → Option (List α)) (P : α → Prop)
    (hone : ∀ i r x, one i = .ok r x → i = put x ++ r ∧ P x) (hput : ∀ x, put x ≠ []) :
    ∀ (f : Nat) (acc l : List α) (i r : Bytes), i.length ≤ f → loop one push f acc i = .ok r l →
      r = [] ∧ ∃ xs : List α, i = xs.flatMap put ∧ (∀ x ∈ xs, P x) ∧ pushAll push acc xs = some l := by
  intro f
  induction f with
  | zero =>
    intro acc l i r hf h
    simp only [loop, PRes.ok.injEq] at h
    exact ⟨h.1.symm, [], by simpa using List.length_eq_zero_iff.mp (by omega), by simp, by simp [pushAll, h.2]⟩
  | succ f ih =>
    intro acc l i r hf h
    unfold loop at h
    split at h
    · next hi =>
      simp only [PRes.ok.injEq] at h
      exact ⟨h.1.symm, [], by simpa using hi, by simp, by simp [pushAll, h.2]⟩
    · obtain ⟨r1, x, h1, h2⟩ := bind_ok h
      obtain ⟨e1, hp⟩ := hone _ _ _ h1
      split at h2
      · cases h2
      · next acc' ha =>
        have hl : 0 < (put x).length := List.length_pos_iff.mpr (hput x)
        obtain ⟨hr, xs, ei, hx, el⟩ := ih _ _ _ _ (by
          rw [e1, List.length_append] at hf; omega) h2
        refine ⟨hr, x :: xs, by rw [e1, ei, List.flatMap_cons], ?_, ?_⟩
        · intro y hm
          rcases List.mem_cons.mp hm with rfl | hm
          · exact hp
          · exact hx y hm
        · simp only [pushAll, ha, Option.bind_some, el]

theorem loopIf_inv {α : Type} {cap : Nat} {one : Bytes → PRes α} (put : α → Bytes) {keep : α → Bool}
    (P : α → Prop) (hone : ∀ i r x, one i = .ok r x → i = put x ++ r ∧ P x) (hput : ∀ x, put x ≠ [])
    {i r : Bytes} {l : List α} (h : loop one (pushIf cap keep) i.length [] i = .ok r l) :
    r = [] ∧ ∃ xs : List α, i = xs.flatMap put ∧ (∀ x ∈ xs, P x) ∧ l = xs.filter keep ∧ l.length ≤ cap := by
  obtain ⟨hr, xs, a, b, c⟩ := loop_inv one put _ P hone hput _ _ _ _ _ (Nat.le_refl _) h
  rw [pushAll_if cap keep xs [] (Nat.zero_le _)] at c
  simp only [List.nil_append] at c
  split at c
  · next hc =>
    simp only [Option.some.injEq] at c
    exact ⟨hr, xs, a, b, c.symm, by rw [← c]; exact hc⟩
  · cases c

theorem putVec_ne_nil (n : Nat) (b : Bytes) (hn : 0 < n) : putVec n b ≠ [] := by
  intro h
  have := congrArg List.length h
  rw [putVec_length] at this
  simp at this; omega

theorem putExt_ne_nil (e : Nat × Bytes) : putExt e ≠ [] := by
  intro hc; have := congrArg List.length hc; simp [putExt, putVec_length] at this

theorem parseExtData_inv {cap : Nat} {supported : List Nat} {i r : Bytes} {l : List (Nat × Bytes)}
    (h : parseExtData cap supported i = .ok r l) :
    ∃ es : List (Nat × Bytes), i = es.flatMap putExt ∧ Fits es ∧ l = known supported es ∧ (l.map (·.1)).Nodup ∧ l.length ≤ cap := by
  obtain ⟨-, xs, a, b, c⟩ := loop_inv parseExt putExt _ (fun e => e.1 < 65536 ∧ e.2.length < 65536)
    (fun _ _ _ => parseExt_inv) putExt_ne_nil _ _ _ _ _ (Nat.le_refl _) h
  rw [pushAll_ext cap supported xs [] (Nat.zero_le _) (by simp)] at c
  simp only [List.nil_append] at c
  split at c
  · next hc =>
    simp only [Option.some.injEq] at c
    exact ⟨xs, a, b, c.symm, by rw [← c]; exact hc.1, by rw [← c]; exact hc.2⟩
  · cases c

theorem num2_inv : ∀ i r x, beNat 2 i = .ok r x → i = beBytes 2 x ++ r ∧ x < 65536 := by
  intro i r x h
  have := beNat_inv h
  exact ⟨this.1, by have := this.2; omega⟩

theorem byte_inv : ∀ (i r : Bytes) (x : UInt8), ((beNat 1 i).bind fun r v => PRes.ok r (UInt8.ofNat v)) = .ok r x →
    i = [x] ++ r ∧ True := by
  intro i r x h
  obtain ⟨r1, v, h1, h2⟩ := bind_ok h
  obtain ⟨e1, hv⟩ := beNat_inv h1
  cases h2
  refine ⟨by rw [e1]; simp [beBytes], trivial⟩

theorem listExt_inv {n cap : Nat} {bad keep : Nat → Bool} {i r : Bytes} {l : List Nat}
    (h : listExt n cap bad keep i = .ok r l) :
    ∃ xs : List Nat, i = putList n xs ∧ U16 xs ∧ 2 * xs.length < 256 ^ n ∧ bad (2 * xs.length) = false
      ∧ l = xs.filter keep ∧ l.length ≤ cap := by
  obtain ⟨r1, len, h1, h⟩ := bind_ok h
  obtain ⟨e1, hlt⟩ := beNat_inv h1
  split at h
  · cases h
  · next hb =>
    obtain ⟨r2, d, h2, h⟩ := bind_ok h
    obtain ⟨e2, hl⟩ := take_ok h2
    split at h
    · cases h
    · next hr =>
      have hr : r2 = [] := by simpa using hr
      obtain ⟨-, xs, a, b, c, hc⟩ := loopIf_inv (beBytes 2) (fun v => v < 65536) num2_inv be2_ne_nil h
      have hd : len = 2 * xs.length := by rw [← hl, a, flat2_length]
      refine ⟨xs, ?_, b, by omega, by rw [← hd]; simpa using hb, c, hc⟩
      rw [e1, e2, hr, List.append_nil, putList, putVec, ← a, hl]

theorem profilesLoop_inv : ∀ (f : Nat) (acc l : List Nat) (i r : Bytes), i.length ≤ f →
    profilesLoop f acc i = .ok r l →
      ∃ xs : List Nat, i = xs.flatMap (beBytes 2) ∧ U16 xs ∧ l = acc ++ xs.filter (fun v => srtpProfiles.contains v) := by
  have hd : ∀ (acc l : List Nat) (i r : Bytes), done i acc = .ok r l → i = [] ∧ l = acc := by
    intro acc l i r h
    unfold done at h
    split at h
    · next hi => cases h; exact ⟨by simpa using hi, rfl⟩
    · cases h
  intro f
  induction f with
  | zero =>
    intro acc l i r _ h
    obtain ⟨a, b⟩ := hd _ _ _ _ h
    exact ⟨[], by simp [a], by simp [U16], by simp [b]⟩
  | succ f ih =>
    intro acc l i r hf h
    unfold profilesLoop at h
    split at h
    · obtain ⟨a, b⟩ := hd _ _ _ _ h
      exact ⟨[], by simp [a], by simp [U16], by simp [b]⟩
    · obtain ⟨r1, v, h1, h2⟩ := bind_ok h
      obtain ⟨e1, hv⟩ := num2_inv _ _ _ h1
      split at h2
      · cases h2
      · next acc' ha =>
        obtain ⟨xs, ei, hx, el⟩ := ih _ _ _ _ (by
          rw [e1, List.length_append, beBytes_length] at hf; omega) h2
        refine ⟨v :: xs, by rw [e1, ei, List.flatMap_cons], ?_, ?_⟩
        · intro y hm
          rcases List.mem_cons.mp hm with rfl | hm
          · exact hv
          · exact hx y hm
        · unfold pushIf at ha
          split at ha
          · next hk =>
            split at ha
            · simp only [Option.some.injEq] at ha
              rw [el, ← ha]
              simp only [List.filter_cons, hk, if_true]; simp
            · cases ha
          · next hk =>
            simp only [Option.some.injEq] at ha
            rw [el, ← ha]
            have : List.filter (fun v => srtpProfiles.contains v) (v :: xs)
                = List.filter (fun v => srtpProfiles.contains v) xs := by
              simp only [List.filter_cons, hk]; rfl
            rw [this]

theorem parseUseSrtp_inv {i r : Bytes} {l : List Nat} (h : parseUseSrtp i = .ok r l) :
    ∃ (xs : List Nat) (mki : Bytes), i = putList 2 xs ++ putVec 1 mki ∧ U16 xs ∧ xs.length < 32768 ∧ mki.length < 256
      ∧ l = xs.filter (fun v => srtpProfiles.contains v) := by
  obtain ⟨r1, d, h1, h⟩ := bind_ok h
  obtain ⟨e1, hd⟩ := vec_inv h1
  obtain ⟨r2, ps, h2, h⟩ := bind_ok h
  obtain ⟨r3, mki, h3, h⟩ := bind_ok h
  obtain ⟨e3, hm⟩ := vec_inv h3
  obtain ⟨xs, ex, hu, hl⟩ := profilesLoop_inv _ _ _ _ _ (Nat.le_refl _) h2
  split at h
  · cases h
  · next hr =>
    cases h
    have hr : r3 = [] := by simpa using hr
    refine ⟨xs, mki, ?_, hu, ?_, by omega, by simpa using hl⟩
    · rw [e1, e3, hr, putList, ← ex, List.append_nil]
    · rw [ex, flat2_length] at hd; omega

theorem parseSigned_inv {i r : Bytes} {a : Nat × Bytes} (h : parseSigned i = .ok r a) :
    i = putSigned a.1 a.2 ++ r ∧ a.1 < 65536 ∧ a.2.length < 65536 := by
  obtain ⟨r1, alg, h1, h⟩ := bind_ok h
  obtain ⟨e1, ha⟩ := beNat_inv h1
  obtain ⟨r2, sg, h2, h⟩ := bind_ok h
  obtain ⟨e2, hs⟩ := vec_inv h2
  cases h
  exact ⟨by rw [e1, e2, putSigned, List.append_assoc], by omega, by simp only; omega⟩

theorem parseHead_inv {i r : Bytes} {h : Head} (hp : parseHead i = .ok r h) :
    i = putHead h.version h.random h.sessionId h.cookie ++ r ∧ h.version < 65536 ∧ h.random.length = 32
      ∧ h.sessionId.length ≤ 32 ∧ h.cookie.length ≤ 255 := by
  obtain ⟨r1, v, h1, hp⟩ := bind_ok hp
  obtain ⟨e1, hv⟩ := beNat_inv h1
  obtain ⟨r2, rnd, h2, hp⟩ := bind_ok hp
  obtain ⟨e2, hr⟩ := take_ok h2
  obtain ⟨r3, sid, h3, hp⟩ := bind_ok hp
  obtain ⟨e3, hs, -⟩ := idParse_inv h3
  obtain ⟨r4, ck, h4, hp⟩ := bind_ok hp
  obtain ⟨e4, hc, -⟩ := idParse_inv h4
  cases hp
  exact ⟨by rw [e1, e2, e3, e4, putHead]; simp, by simp only; omega, hr, hs, hc⟩

theorem parseCompression_inv {i r cs : Bytes} (h : parseCompression i = .ok r cs) :
    ∃ d : Bytes, i = putVec 1 d ++ r ∧ d.length < 256 ∧ cs = d.filter (· == 0) ∧ cs = [0] := by
  obtain ⟨r1, d, h1, h⟩ := bind_ok h
  obtain ⟨e1, hd⟩ := vec_inv h1
  obtain ⟨r2, l, h2, h⟩ := bind_ok h
  split at h
  · cases h
  · next hr =>
    cases h
    have hr : r2 = [] := by simpa using hr
    subst hr
    obtain ⟨xs, ex, -, hl, hc, hn⟩ := many1_inv (fun b => [b]) (fun _ => True) byte_inv h2
    rw [flat1] at ex
    subst ex
    refine ⟨d, e1, by omega, hl, ?_⟩
    have h1 := List.length_pos_iff.mpr hn
    obtain ⟨x, hx⟩ := List.length_eq_one_iff.mp (show cs.length = 1 by omega)
    have : x ∈ d.filter (· == 0) := by rw [← hl, hx]; simp
    have := (List.mem_filter.mp this).2
    rw [hx]
    simpa using this

theorem parseServerExts_inv {cap : Nat} {supported : List Nat} {i : Bytes} {o : Option (List (Nat × Bytes))}
    (h : parseServerExts cap supported i = .ok [] o) :
    (i = [] ∧ o = none) ∨ (i = putExts [] ∧ o = none) ∨
      ∃ es : List (Nat × Bytes), es ≠ [] ∧ i = putExts es ∧ Fits es ∧ (es.flatMap putExt).length < 65536 ∧ o = some (known supported es) := by
  unfold parseServerExts at h
  split at h
  · cases h; exact .inl ⟨rfl, rfl⟩
  · split at h
    · cases h
    · obtain ⟨r1, len, h1, h⟩ := bind_ok h
      obtain ⟨e1, hlt⟩ := beNat_inv h1
      split at h
      · cases h
      · split at h
        · next hpos =>
          obtain ⟨r2, d, h2, h⟩ := bind_ok h
          obtain ⟨e2, hl⟩ := take_ok h2
          split at h
          · cases h
          · next hr =>
            have hr : r2 = [] := by simpa using hr
            obtain ⟨r3, l, h3, h⟩ := bind_ok h
            cases h
            obtain ⟨es, ee, hf, el, -, -⟩ := parseExtData_inv h3
            refine .inr (.inr ⟨es, ?_, ?_, hf, by rw [← ee]; omega, by rw [el]⟩)
            · rintro rfl
              simp at ee
              rw [ee] at hl; simp at hl; omega
            · rw [e1, e2, putExts, putVec, ← ee, hl, List.append_nil]
        · next h0 =>
          cases h
          have h0 : len = 0 := by omega
          subst h0
          exact .inr (.inl ⟨by rw [e1]; simp [putExts, putVec], rfl⟩)

end Verif.Msg

import Verif.Model.Msg
import Verif.Lemmas.Wire
import Verif.Lemmas.Forged13
/-!
# Lemmas about the pieces of the handshake message codecs
-/
namespace Verif.Msg
open Verif Verif.Wire

theorem putVec_length (n : Nat) (b : Bytes) : (putVec n b).length = n + b.length := by
  simp [putVec]

theorem vec_putVec (n : Nat) (b r : Bytes) (h : b.length < 256 ^ n) :
    vec n (putVec n b ++ r) = .ok r b := by
  unfold vec putVec
  rw [List.append_assoc, beNat_beBytes _ _ _ h]
  exact take_append b r _ rfl

theorem idParse_putVec (max : Nat) (b r : Bytes) (h : b.length ≤ max) (hm : max ≤ 255) :
    idParse max (putVec 1 b ++ r) = .ok r b := by
  unfold idParse putVec
  rw [List.append_assoc, beNat_beBytes _ _ _ (by omega)]
  simp only [PRes.bind_ok']
  rw [if_neg (by omega)]
  exact take_append b r _ rfl

theorem take_zero (i : Bytes) : take 0 i = .ok i [] := by simp [take]

theorem parseExt_putExt (e : Nat × Bytes) (r : Bytes) (ht : e.1 < 65536) (hl : e.2.length < 65536) :
    parseExt (putExt e ++ r) = .ok r e := by
  unfold parseExt putExt putVec
  rw [List.append_assoc, beNat_beBytes _ _ _ (by simpa using ht)]
  simp only [PRes.bind_ok']
  rw [List.append_assoc, beNat_beBytes _ _ _ (by simpa using hl)]
  simp only [PRes.bind_ok']
  by_cases h : e.2.length > 0
  · rw [if_pos h, take_append _ _ _ rfl]; rfl
  · rw [if_neg h]
    have : e.2 = [] := List.length_eq_zero_iff.mp (by omega)
    rw [this, List.nil_append]
    cases e; simp_all

/-- The loop of `many0`/`many1` over items written one after the other. -/
theorem manyLoop_items {α : Type} (cap : Nat) (one : Bytes → PRes α) (put : α → Bytes) (keep : α → Bool)
    (xs : List α) (hone : ∀ x ∈ xs, ∀ r, one (put x ++ r) = .ok r x) (hput : ∀ x ∈ xs, put x ≠ []) :
    ∀ (f : Nat) (acc : List α), (xs.flatMap put).length ≤ f → acc.length ≤ cap →
      manyLoop cap one keep f acc (xs.flatMap put) =
        if (acc ++ xs.filter keep).length ≤ cap then .ok [] (acc ++ xs.filter keep) else .error := by
  induction xs with
  | nil =>
    intro f acc _ hc
    cases f <;> simp [manyLoop, hc]
  | cons x xs ih =>
    intro f acc hf hc
    have hx := hput x (by simp)
    have hl : 0 < (put x).length := List.length_pos_iff.mpr hx
    simp only [List.flatMap_cons, List.length_append] at hf
    obtain ⟨f, rfl⟩ : ∃ k, f = k + 1 := ⟨f - 1, by omega⟩
    have hne : (put x ++ xs.flatMap put).isEmpty = false := by
      cases h : put x with
      | nil => exact absurd h hx
      | cons => rfl
    simp only [List.flatMap_cons, manyLoop, hne, Bool.false_eq_true, if_false, hone x (by simp)]
    rw [if_neg (by simp only [List.length_append]; omega)]
    have ih' := ih (fun y hy => hone y (by simp [hy])) (fun y hy => hput y (by simp [hy])) f
    by_cases hk : keep x = true
    · rw [if_pos hk]
      by_cases hlt : acc.length < cap
      · rw [if_pos hlt, ih' (acc ++ [x]) (by omega) (by simp; omega)]
        simp [hk]
      · rw [if_neg hlt, if_neg]
        simp [hk]; omega
    · rw [if_neg hk, ih' acc (by omega) hc]
      simp [hk]

theorem many0_items {α : Type} (cap : Nat) (one : Bytes → PRes α) (put : α → Bytes) (keep : α → Bool)
    (xs : List α) (hone : ∀ x ∈ xs, ∀ r, one (put x ++ r) = .ok r x) (hput : ∀ x ∈ xs, put x ≠ []) :
    many0 cap one keep (xs.flatMap put) =
      if (xs.filter keep).length ≤ cap then .ok [] (xs.filter keep) else .error := by
  unfold many0
  rw [manyLoop_items cap one put keep xs hone hput _ [] (Nat.le_refl _) (Nat.zero_le _)]
  rfl

theorem many1_items {α : Type} (cap : Nat) (one : Bytes → PRes α) (put : α → Bytes) (keep : α → Bool)
    (xs : List α) (hone : ∀ x ∈ xs, ∀ r, one (put x ++ r) = .ok r x) (hput : ∀ x ∈ xs, put x ≠ []) :
    many1 cap one keep (xs.flatMap put) =
      if xs.filter keep ≠ [] ∧ (xs.filter keep).length ≤ cap then .ok [] (xs.filter keep) else .error := by
  unfold many1
  rw [manyLoop_items cap one put keep xs hone hput _ [] (Nat.le_refl _) (Nat.zero_le _)]
  simp only [List.nil_append]
  by_cases h : (xs.filter keep).length ≤ cap
  · rw [if_pos h]
    simp only [PRes.bind_ok']
    by_cases he : xs.filter keep = []
    · rw [he]; simp
    · rw [if_neg (by simpa using he), if_pos ⟨he, h⟩]
  · rw [if_neg h, if_neg (by intro x; exact h x.2)]; rfl

/-- Folding the body of a hand-written loop over the items. -/
def pushAll {α : Type} (push : List α → α → Option (List α)) : List α → List α → Option (List α)
  | acc, [] => some acc
  | acc, x :: xs => (push acc x).bind fun acc => pushAll push acc xs

theorem loop_items {α : Type} (one : Bytes → PRes α) (put : α → Bytes)
    (push : List α → α → Option (List α)) (xs : List α)
    (hone : ∀ x ∈ xs, ∀ r, one (put x ++ r) = .ok r x) (hput : ∀ x ∈ xs, put x ≠ []) :
    ∀ (f : Nat) (acc : List α), (xs.flatMap put).length ≤ f →
      loop one push f acc (xs.flatMap put) =
        match pushAll push acc xs with
        | some l => .ok [] l
        | none => .failure := by
  induction xs with
  | nil => intro f acc _; cases f <;> simp [loop, pushAll]
  | cons x xs ih =>
    intro f acc hf
    have hx := hput x (by simp)
    have hl : 0 < (put x).length := List.length_pos_iff.mpr hx
    simp only [List.flatMap_cons, List.length_append] at hf
    obtain ⟨f, rfl⟩ : ∃ k, f = k + 1 := ⟨f - 1, by omega⟩
    have hne : (put x ++ xs.flatMap put).isEmpty = false := by
      cases h : put x with
      | nil => exact absurd h hx
      | cons => rfl
    simp only [List.flatMap_cons, loop, hne, Bool.false_eq_true, if_false, hone x (by simp), PRes.bind_ok',
      pushAll]
    cases hp : push acc x with
    | none => rfl
    | some acc' =>
      exact ih (fun y hy => hone y (by simp [hy])) (fun y hy => hput y (by simp [hy])) f acc' (by omega)

theorem pushAll_if {α : Type} (cap : Nat) (keep : α → Bool) (xs : List α) :
    ∀ acc : List α, acc.length ≤ cap →
      pushAll (pushIf cap keep) acc xs =
        if (acc ++ xs.filter keep).length ≤ cap then some (acc ++ xs.filter keep) else none := by
  induction xs with
  | nil => intro acc h; simp [pushAll, h]
  | cons x xs ih =>
    intro acc h
    simp only [pushAll, pushIf]
    by_cases hk : keep x = true
    · rw [if_pos hk]
      by_cases hlt : acc.length < cap
      · rw [if_pos hlt]
        simp only [Option.bind_some]
        rw [ih (acc ++ [x]) (by simp; omega)]
        simp [hk]
      · rw [if_neg hlt, if_neg]
        · rfl
        · simp [hk]; omega
    · rw [if_neg hk]
      simp only [Option.bind_some]
      rw [ih acc h]
      simp [hk]

/-- Extensions kept of a list: those of a supported type. -/
def known (supported : List Nat) (es : List (Nat × Bytes)) : List (Nat × Bytes) :=
  es.filter fun e => supported.contains e.1

theorem pushAll_ext (cap : Nat) (supported : List Nat) (xs : List (Nat × Bytes)) :
    ∀ acc : List (Nat × Bytes), acc.length ≤ cap → (acc.map (·.1)).Nodup →
      pushAll (pushExt cap supported) acc xs =
        if ((acc ++ known supported xs).map (·.1)).Nodup ∧ (acc ++ known supported xs).length ≤ cap
        then some (acc ++ known supported xs) else none := by
  induction xs with
  | nil => intro acc h hn; simp [pushAll, known, h, hn]
  | cons x xs ih =>
    intro acc h hn
    simp only [pushAll, pushExt]
    by_cases hk : supported.contains x.1 = true
    · rw [if_pos hk]
      have hkn : known supported (x :: xs) = x :: known supported xs := by
        simp only [known, List.filter_cons, hk, if_true]
      rw [hkn]
      by_cases hd : acc.any (·.1 == x.1) = true
      · rw [if_pos hd, if_neg]
        · rfl
        · rintro ⟨hnd, -⟩
          obtain ⟨y, hy, hyx⟩ := List.any_eq_true.mp hd
          rw [List.map_append, List.nodup_append] at hnd
          exact hnd.2.2 y.1 (List.mem_map_of_mem hy) x.1 (by simp) (by simpa using hyx)
      · rw [if_neg hd]
        have hd' : ∀ y ∈ acc, y.1 ≠ x.1 := by
          intro y hy e
          exact hd (List.any_eq_true.mpr ⟨y, hy, by simpa using e⟩)
        by_cases hlt : acc.length < cap
        · rw [if_pos hlt]
          simp only [Option.bind_some]
          rw [ih (acc ++ [x]) (by simp; omega) (by
            rw [List.map_append, List.nodup_append]
            refine ⟨hn, by simp, ?_⟩
            intro a ha b hb
            obtain ⟨y, hy, rfl⟩ := List.mem_map.mp ha
            simp at hb
            rw [hb]; exact hd' y hy)]
          simp
        · rw [if_neg hlt, if_neg]
          · rfl
          · rintro ⟨-, hl⟩
            simp at hl; omega
    · rw [if_neg hk]
      simp only [Option.bind_some]
      rw [ih acc h hn]
      have hkn : known supported (x :: xs) = known supported xs := by
        simp only [known, List.filter_cons, hk]
        rfl
      rw [hkn]

/-- Every extension of the list can be written: type and length fit. -/
def Fits (es : List (Nat × Bytes)) : Prop := ∀ e ∈ es, e.1 < 65536 ∧ e.2.length < 65536

/-- What the extension loop makes of extensions written one after the other. -/
theorem parseExtData_items (cap : Nat) (supported : List Nat) (es : List (Nat × Bytes)) (h : Fits es) :
    parseExtData cap supported (es.flatMap putExt) =
      if ((known supported es).map (·.1)).Nodup ∧ (known supported es).length ≤ cap
      then .ok [] (known supported es) else .failure := by
  unfold parseExtData
  rw [loop_items parseExt putExt _ es (fun e he r => parseExt_putExt e r (h e he).1 (h e he).2)
    (fun e _ => by intro hc; have := congrArg List.length hc; simp [putExt, putVec_length] at this)
    _ [] (Nat.le_refl _), pushAll_ext cap supported es [] (Nat.zero_le _) (by simp)]
  simp only [List.nil_append]
  by_cases hc : ((known supported es).map (·.1)).Nodup ∧ (known supported es).length ≤ cap
  · rw [if_pos hc, if_pos hc]
  · rw [if_neg hc, if_neg hc]

theorem be2_ne_nil (v : Nat) : beBytes 2 v ≠ [] := by simp [beBytes]

/-- Numbers of 16 bits. -/
def U16 (l : List Nat) : Prop := ∀ v ∈ l, v < 65536

theorem flat2_length (l : List Nat) : (l.flatMap (beBytes 2)).length = 2 * l.length := by
  induction l with
  | nil => rfl
  | cons a l ih => simp [ih]; omega

/-- The list of an extension as `listExt` reads it. -/
theorem listExt_putList (n cap : Nat) (bad : Nat → Bool) (keep : Nat → Bool) (l : List Nat) (hu : U16 l)
    (hl : 2 * l.length < 256 ^ n) (hb : bad (2 * l.length) = false) :
    listExt n cap bad keep (putList n l) =
      if (l.filter keep).length ≤ cap then .ok [] (l.filter keep) else .failure := by
  unfold listExt putList putVec
  rw [← List.append_nil (beBytes n _ ++ _), List.append_assoc, flat2_length, beNat_beBytes _ _ _ hl]
  simp only [PRes.bind_ok', hb, Bool.false_eq_true, if_false]
  rw [take_append _ _ _ (flat2_length l)]
  simp only [PRes.bind_ok', List.isEmpty_nil, Bool.not_true, Bool.false_eq_true, if_false]
  rw [loop_items (beNat 2) (beBytes 2) _ l (fun v hv r => beNat_beBytes 2 v r (by have := hu v hv; omega))
    (fun v _ => be2_ne_nil v) _ [] (Nat.le_refl _), pushAll_if cap keep l [] (Nat.zero_le _)]
  simp only [List.nil_append]
  by_cases hc : (l.filter keep).length ≤ cap
  · rw [if_pos hc, if_pos hc]
  · rw [if_neg hc, if_neg hc]

theorem profilesLoop_items (ps : List Nat) (hu : U16 ps) :
    ∀ (f : Nat) (acc : List Nat), (ps.flatMap (beBytes 2)).length ≤ f → acc.length ≤ 3 →
      profilesLoop f acc (ps.flatMap (beBytes 2)) =
        if (acc ++ ps.filter (fun v => srtpProfiles.contains v)).length ≤ 3
        then .ok [] (acc ++ ps.filter (fun v => srtpProfiles.contains v)) else .failure := by
  induction ps with
  | nil => intro f acc _ h; cases f <;> simp [profilesLoop, done, h]
  | cons p ps ih =>
    intro f acc hf hc
    simp only [List.flatMap_cons, List.length_append, beBytes_length] at hf
    obtain ⟨f, rfl⟩ : ∃ k, f = k + 1 := ⟨f - 1, by omega⟩
    simp only [List.flatMap_cons, profilesLoop]
    rw [if_neg (by simp)]
    rw [beNat_beBytes 2 p _ (by have := hu p (by simp); omega)]
    simp only [PRes.bind_ok', pushIf]
    have ih' := ih (fun v hv => hu v (by simp [hv])) f
    by_cases hk : srtpProfiles.contains p = true
    · rw [if_pos hk]
      by_cases hlt : acc.length < 3
      · rw [if_pos hlt]
        simp only
        rw [ih' (acc ++ [p]) (by omega) (by simp; omega)]
        simp only [List.filter_cons, hk, if_true, List.append_assoc, List.singleton_append]
      · rw [if_neg hlt, if_neg]
        simp only [List.filter_cons, hk, if_true, List.length_append, List.length_cons]; omega
    · rw [if_neg hk]
      simp only
      rw [ih' acc (by omega) hc]
      have : List.filter (fun v => srtpProfiles.contains v) (p :: ps)
          = List.filter (fun v => srtpProfiles.contains v) ps := by
        simp only [List.filter_cons, hk]; rfl
      rw [this]

/-- What a peer reads in a `use_srtp` extension: the profiles it knows, in order. -/
theorem parseUseSrtp_put (ps : List Nat) (hu : U16 ps) (hl : 2 * ps.length < 65536) :
    parseUseSrtp (putUseSrtp ps) =
      if (ps.filter (fun v => srtpProfiles.contains v)).length ≤ 3
      then .ok [] (ps.filter (fun v => srtpProfiles.contains v)) else .failure := by
  unfold parseUseSrtp putUseSrtp putList
  rw [vec_putVec 2 _ _ (by rw [flat2_length]; simpa using hl)]
  simp only [PRes.bind_ok']
  rw [profilesLoop_items ps hu _ [] (Nat.le_refl _) (by simp)]
  simp only [List.nil_append]
  split
  · simp only [PRes.bind_ok']
    rw [← List.append_nil (putVec 1 []), vec_putVec 1 [] [] (by simp)]
    rfl
  · rfl

theorem parseSigned_put (alg : Nat) (sig r : Bytes) (ha : alg < 65536) (hs : sig.length < 65536) :
    parseSigned (putSigned alg sig ++ r) = .ok r (alg, sig) := by
  unfold parseSigned putSigned
  rw [List.append_assoc, beNat_beBytes _ _ _ (by omega)]
  simp only [PRes.bind_ok']
  rw [vec_putVec 2 _ _ (by omega)]
  rfl

theorem parseHead_put (v : Nat) (random sid cookie r : Bytes) (hv : v < 65536) (hr : random.length = 32)
    (hs : sid.length ≤ 32) (hc : cookie.length ≤ 255) :
    parseHead (putHead v random sid cookie ++ r) =
      .ok r { version := v, random, sessionId := sid, cookie } := by
  unfold parseHead putHead
  simp only [List.append_assoc]
  rw [beNat_beBytes _ _ _ (by omega)]
  simp only [PRes.bind_ok']
  rw [take_append _ _ _ hr]
  simp only [PRes.bind_ok']
  rw [idParse_putVec 32 _ _ hs (by omega)]
  simp only [PRes.bind_ok']
  rw [idParse_putVec 255 _ _ hc (by omega)]
  rfl

theorem byte_put (b : UInt8) (r : Bytes) :
    (beNat 1 ([b] ++ r)).bind (fun r v => PRes.ok r (UInt8.ofNat v)) = .ok r b := by
  rw [List.singleton_append, beNat_one_cons]
  simp

theorem flat1 (l : Bytes) : l.flatMap (fun b => [b]) = l := by
  induction l with
  | nil => rfl
  | cons a l ih => simp [ih]

theorem parseCompression_put (cs r : Bytes) (hl : cs.length < 256) :
    parseCompression (putVec 1 cs ++ r) =
      if cs.filter (· == 0) ≠ [] ∧ (cs.filter (· == 0)).length ≤ 1 then .ok r (cs.filter (· == 0))
      else .error := by
  unfold parseCompression
  rw [vec_putVec 1 _ _ (by simpa using hl)]
  simp only [PRes.bind_ok']
  have := many1_items 1 (fun b => (beNat 1 b).bind fun r v => PRes.ok r (UInt8.ofNat v)) (fun b => [b])
    (fun c => c == 0) cs (fun x _ r => byte_put x r) (fun x _ => by simp)
  rw [flat1] at this
  rw [this]
  split
  · simp
  · rfl

theorem parseServerExts_put (cap : Nat) (supported : List Nat) (es : List (Nat × Bytes)) (h : Fits es)
    (hl : (es.flatMap putExt).length < 65536) (hne : es ≠ []) :
    parseServerExts cap supported (putExts es) =
      if ((known supported es).map (·.1)).Nodup ∧ (known supported es).length ≤ cap
      then .ok [] (some (known supported es)) else .failure := by
  unfold parseServerExts putExts putVec
  have hpos : 0 < (es.flatMap putExt).length := by
    cases es with
    | nil => exact absurd rfl hne
    | cons e es => simp [putExt, putVec_length]; omega
  rw [if_neg (by simp [beBytes]), if_neg (by simp)]
  rw [← List.append_nil (beBytes 2 _ ++ _), List.append_assoc, beNat_beBytes _ _ _ (by omega)]
  simp only [PRes.bind_ok', List.append_nil]
  rw [if_neg (by omega), if_pos hpos]
  rw [← List.append_nil (es.flatMap putExt), take_append _ _ _ (by simp)]
  simp only [PRes.bind_ok', List.isEmpty_nil, Bool.not_true, Bool.false_eq_true, if_false]
  rw [parseExtData_items cap supported es h]
  split <;> rfl

end Verif.Msg

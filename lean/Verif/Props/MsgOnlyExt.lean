import Verif.Props.MsgOnly12
import Verif.Props.MsgOnly13
/-!
# Only well-formed extension data are read (C59)
-/
namespace Verif.Props.MsgOnlyExt
open Verif Verif.Msg Verif.Wire
open Verif.Props.Msg

theorem val_some {α : Type} {p : PRes α} {a : α} (h : val p = some a) : ∃ r, p = .ok r a := by
  cases p with
  | ok r' a' => simp only [val, Option.some.injEq] at h; exact ⟨r', by rw [h]⟩
  | _ => cases h

theorem num2_eq : (num 2 : Nat → Bytes) = beBytes 2 := by funext v; exact num_eq 2 v

theorem list_eq (k : Nat) (l : List Nat) : prefixed k (l.flatMap (num 2)) = putList k l := by
  rw [prefixed_eq, num2_eq]; rfl

/-- `supported_groups`, both versions. -/
theorem groups_only (b : Bytes) (l : List Nat) (h : val (parseGroups b) = some l) :
    ∃ xs : List Nat, b = prefixed 2 (xs.flatMap (num 2)) ∧ (∀ x ∈ xs, x < 65536) ∧ xs.length < 32768
      ∧ l = xs.filter (fun g => [0x001D, 0x0017, 0x0018, 0x0019].contains g) ∧ l.length ≤ 4 := by
  obtain ⟨r, h⟩ := val_some h
  obtain ⟨xs, e, hu, hl, -, el, hc⟩ := listExt_inv h
  exact ⟨xs, by rw [list_eq]; exact e, hu, by omega, el, hc⟩

/-- `signature_algorithms`, DTLS 1.2. -/
theorem sigs12_only (b : Bytes) (l : List Nat) (h : val (Msg12.parseSigAlgs b) = some l) :
    ∃ xs : List Nat, xs ≠ [] ∧ b = prefixed 2 (xs.flatMap (num 2)) ∧ (∀ x ∈ xs, x < 65536) ∧ xs.length < 32768
      ∧ l = xs.filter (fun g => [0x0403, 0x0503, 0x0401, 0x0501].contains g) ∧ l.length ≤ 4 := by
  obtain ⟨r, h⟩ := val_some h
  obtain ⟨xs, e, hu, hl, hb, el, hc⟩ := listExt_inv h
  refine ⟨xs, ?_, by rw [list_eq]; exact e, hu, by omega, el, hc⟩
  rintro rfl
  cases hb

/-- `signature_algorithms`, DTLS 1.3. -/
theorem sigs13_only (b : Bytes) (l : List Nat) (h : val (Msg13.parseSigAlgs b) = some l) :
    ∃ xs : List Nat, xs ≠ [] ∧ b = prefixed 2 (xs.flatMap (num 2)) ∧ (∀ x ∈ xs, x < 65536) ∧ xs.length < 32768
      ∧ l = xs.filter (fun g => [0x0403, 0x0503].contains g) ∧ l.length ≤ 2 := by
  obtain ⟨r, h⟩ := val_some h
  obtain ⟨xs, e, hu, hl, hb, el, hc⟩ := listExt_inv h
  refine ⟨xs, ?_, by rw [list_eq]; exact e, hu, by omega, el, hc⟩
  rintro rfl
  cases hb

/-- `supported_versions` of a client. -/
theorem versions_only (b : Bytes) (l : List Nat) (h : val (Msg13.parseClientVersions b) = some l) :
    ∃ xs : List Nat, xs ≠ [] ∧ b = prefixed 1 (xs.flatMap (num 2)) ∧ (∀ x ∈ xs, x < 65536) ∧ xs.length < 128
      ∧ l = xs.filter (fun v => [0xFEFF, 0xFEFD, 0xFEFC].contains v) ∧ l.length ≤ 3 := by
  obtain ⟨r, h⟩ := val_some h
  obtain ⟨xs, e, hu, hl, hb, el, hc⟩ := listExt_inv h
  refine ⟨xs, ?_, by rw [list_eq]; exact e, hu, by omega, el, hc⟩
  rintro rfl
  cases hb

/-- `use_srtp`, both versions. -/
theorem srtp_only (b : Bytes) (l : List Nat) (h : val (parseUseSrtp b) = some l) :
    ∃ (xs : List Nat) (mki : Bytes), b = prefixed 2 (xs.flatMap (num 2)) ++ prefixed 1 mki
      ∧ (∀ x ∈ xs, x < 65536) ∧ xs.length < 32768 ∧ mki.length < 256
      ∧ l = xs.filter (fun v => [1, 7, 8].contains v) := by
  obtain ⟨r, h⟩ := val_some h
  obtain ⟨xs, mki, e, hu, hl, hm, el⟩ := parseUseSrtp_inv h
  exact ⟨xs, mki, by rw [list_eq, prefixed_eq]; exact e, hu, hl, hm, el⟩

theorem share_inv : ∀ (i r : Bytes) (e : Nat × Bytes), Msg13.parseShare i = .ok r e →
    i = Msg13.putShare e ++ r ∧ (e.1 < 65536 ∧ e.2.length < 65536) := by
  intro i r e h
  obtain ⟨r1, g, h1, h⟩ := bind_ok h
  obtain ⟨e1, hg⟩ := beNat_inv h1
  obtain ⟨r2, k, h2, h⟩ := bind_ok h
  obtain ⟨e2, hk⟩ := vec_inv h2
  cases h
  exact ⟨by rw [e1, e2, Msg13.putShare, List.append_assoc], by simp only; omega, by simp only; omega⟩

theorem done_inv {α : Type} {r r' : Bytes} {a b : α} (h : done r a = .ok r' b) : r = [] ∧ a = b := by
  unfold done at h
  split at h
  · next hr => cases h; exact ⟨by simpa using hr, rfl⟩
  · cases h

/-- `key_share` of a client. -/
theorem shares_only (b : Bytes) (l : List (Nat × Bytes)) (h : val (Msg13.parseClientShares b) = some l) :
    ∃ xs : List (Nat × Bytes), b = prefixed 2 (xs.flatMap fun e => num 2 e.1 ++ prefixed 2 e.2)
      ∧ (∀ e ∈ xs, e.1 < 65536 ∧ e.2.length < 65536)
      ∧ l = xs.filter (fun e => [0x001D, 0x0017, 0x0018, 0x0019].contains e.1) ∧ l.length ≤ 4 := by
  obtain ⟨r, h⟩ := val_some h
  obtain ⟨r1, d, h1, h⟩ := bind_ok h
  obtain ⟨e1, hd⟩ := vec_inv h1
  split at h
  · cases h
  · next hr =>
    have hr : r1 = [] := by simpa using hr
    obtain ⟨-, xs, ex, hx, el, hc⟩ := loopIf_inv Msg13.putShare (fun e => e.1 < 65536 ∧ e.2.length < 65536)
      share_inv (fun e hn => by have := congrArg List.length hn; simp [Msg13.putShare, putVec_length] at this) h
    have hf : (fun e : Nat × Bytes => num 2 e.1 ++ prefixed 2 e.2) = Msg13.putShare := by
      funext e; rw [num_eq, prefixed_eq]; rfl
    refine ⟨xs, ?_, hx, el, hc⟩
    rw [hf, prefixed_eq, ← ex, e1, hr, List.append_nil]

/-- `key_share` of a ServerHello. -/
theorem server_share_only (b : Bytes) (e : Nat × Bytes) (h : val (Msg13.parseServerShare b) = some e) :
    b = num 2 e.1 ++ prefixed 2 e.2 ∧ e.1 < 65536 ∧ e.2.length < 65536 := by
  obtain ⟨r, h⟩ := val_some h
  obtain ⟨r1, x, h1, h⟩ := bind_ok h
  obtain ⟨hr, rfl⟩ := done_inv h
  obtain ⟨e1, hx⟩ := share_inv _ _ _ h1
  refine ⟨?_, hx⟩
  rw [e1, hr, List.append_nil, num_eq, prefixed_eq]; rfl

/-- `key_share` of a HelloRetryRequest, `supported_versions` of a ServerHello. -/
theorem number_only (b : Bytes) (v : Nat)
    (h : val (Msg13.parseRetryShare b) = some v ∨ val (Msg13.parseServerVersion b) = some v) :
    b = num 2 v ∧ v < 65536 := by
  rcases h with h | h <;>
  · obtain ⟨r, h⟩ := val_some h
    obtain ⟨r1, x, h1, h⟩ := bind_ok h
    obtain ⟨hr, rfl⟩ := done_inv h
    obtain ⟨e1, hx⟩ := beNat_inv h1
    exact ⟨by rw [e1, hr, List.append_nil, num_eq], by omega⟩

/-- `cookie`: never empty. -/
theorem cookie_only (b c : Bytes) (h : val (Msg13.parseCookie b) = some c) :
    b = prefixed 2 c ∧ 1 ≤ c.length ∧ c.length < 65536 := by
  obtain ⟨r, h⟩ := val_some h
  unfold Msg13.parseCookie at h
  split at h
  · cases h
  · obtain ⟨r1, len, h1, h⟩ := bind_ok h
    obtain ⟨e1, hl⟩ := beNat_inv h1
    split at h
    · cases h
    · next hn =>
      cases h
      have : c.length = len := by omega
      refine ⟨by rw [e1, prefixed_eq, putVec, this], by omega, by omega⟩

/-- `ec_point_formats`, DTLS 1.2. -/
theorem formats_only (b : Bytes) (l : List Nat) (h : val (Msg12.parsePointFormats b) = some l) :
    ∃ xs : List Nat, b = prefixed 1 (xs.flatMap (num 1)) ∧ (∀ x ∈ xs, x < 256)
      ∧ l = xs.filter (fun f => decide (f < 3)) ∧ l.length ≤ 3 := by
  obtain ⟨r, h⟩ := val_some h
  obtain ⟨r1, d, h1, h⟩ := bind_ok h
  obtain ⟨e1, hd⟩ := vec_inv h1
  split at h
  · cases h
  · next hr =>
    have hr : r1 = [] := by simpa using hr
    obtain ⟨-, xs, ex, hx, el, hc⟩ := loopIf_inv (beBytes 1) (fun v => v < 256)
      (fun i r x h => by have := beNat_inv h; exact ⟨this.1, by have := this.2; omega⟩)
      (fun x => by simp [beBytes]) h
    have hf : (num 1 : Nat → Bytes) = beBytes 1 := by funext v; exact num_eq 1 v
    refine ⟨xs, ?_, hx, el, hc⟩
    rw [hf, prefixed_eq, ← ex, e1, hr, List.append_nil]

/-! ## Witnesses -/

/-- Accepted, and refused with one more byte, for messages and extensions of both versions. -/
example : (opt (Msg12.parseFinished 0xC02B (List.replicate 12 1))) = some ([], List.replicate 12 1) := by decide
example : (opt (Msg12.parseFinished 0xC02B (List.replicate 13 1))) = some ([1], List.replicate 12 1) := by decide
example : val (parseGroups [0, 4, 0, 0x1D, 1, 0]) = some [0x1D] := by decide
example : val (parseGroups [0, 4, 0, 0x1D, 1, 0, 0]) = none := by decide
example : val (Msg13.parseCookie [0, 2, 7, 7]) = some [7, 7] := by decide
example : val (Msg13.parseCookie [0, 2, 7, 7, 7]) = none := by decide
example : val (Msg13.parseClientShares [0, 12, 0, 0x1D, 0, 2, 7, 7, 0x11, 0xEC, 0, 2, 9, 9]) = some [(0x1D, [7, 7])] := by
  decide
example : val (Msg13.parseServerShare [0, 0x1D, 0, 2, 7, 7]) = some (0x1D, [7, 7]) := by decide
example : val (Msg13.parseServerShare [0, 0x1D, 0, 2, 7, 7, 7]) = none := by decide
example : val (Msg13.parseServerVersion [0xFE, 0xFC]) = some 0xFEFC := by decide
example : val (Msg13.parseClientVersions [4, 0xFE, 0xFC, 3, 4]) = some [0xFEFC] := by decide
example : val (parseUseSrtp [0, 4, 0, 7, 0, 9, 1, 5]) = some [7] := by decide
example : val (Msg12.parsePointFormats [2, 0, 9]) = some [0] := by decide
example : val (Msg12.parseSigAlgs [0, 4, 4, 3, 8, 4]) = some [0x0403] := by decide
example : val (Msg13.parseSigAlgs [0, 4, 4, 3, 8, 4]) = some [0x0403] := by decide
example : opt (Msg12.parseCertReq [2, 1, 64, 0, 4, 4, 3, 8, 4, 0, 3, 0, 1, 9]) =
    some ([], { types := [64], sigs := [0x0403], auths := [[9]] }) := by decide
example : opt (Msg13.parseCertificate [1, 5, 0, 0, 8, 0, 0, 1, 9, 0, 2, 7, 7]) = some ([], ([5], [[9]])) := by decide
example : opt (Msg13.parseEncExts [0, 9, 0xAB, 0xCD, 0, 0, 0, 14, 0, 1, 5]) = some ([], [(14, [5])]) := by decide

end Verif.Props.MsgOnlyExt

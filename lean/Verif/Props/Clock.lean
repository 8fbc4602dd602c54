import Verif.Model.Clock
import Verif.Lemmas.Bytes
/-!
# C84: the time in a DTLS 1.2 random
-/
namespace Verif.Props.Clock
open Verif Verif.Clock

/-- A correct pair: an instant and the time of day it stands for, `late` nanoseconds short. -/
def Stands (day : Int → Int) (late : Int) (b : Int × Int) : Prop := b.2 = day b.1 - late

theorem search_some {low now t : Int} {n : Nat} (h : search low now n = some t) :
    low ≤ t ∧ t < now ∧ now - t ≤ n * second := by
  induction n with
  | zero => cases h
  | succ n ih =>
    unfold search at h
    split at h
    · cases h
      unfold second at *
      refine ⟨by assumption, ?_, ?_⟩ <;> omega
    · have := ih h
      unfold second at *
      refine ⟨this.1, this.2.1, ?_⟩
      omega

theorem search_none {low now : Int} {n : Nat} : search low now n = none ↔ n = 0 ∨ now - second < low := by
  induction n with
  | zero => simp [search]
  | succ n ih =>
    unfold search
    split
    · rename_i h
      unfold second at *
      constructor
      · intro g; cases g
      · intro g; omega
    · rename_i h
      rw [ih]
      unfold second at *
      omega

/-- **C84.** The beginning of time is found, at most an hour back, unless the platform cannot represent the instant one second
ago, and it stands for the right time of day up to the time that passed between two looks at the clock. `day` is the
time of day at an instant while the system clock runs evenly. -/
theorem beginning_right {low now sys again : Int} (day : Int → Int) (hd : ∀ x y, day x - day y = x - y)
    (hs : sys = day now) (hlow : low ≤ now - second) :
    ∃ b, beginning low now sys again = some b ∧ low ≤ b.1 ∧ b.1 < now ∧ now - b.1 ≤ 3600 * second ∧
      Stands day (again - now) b := by
  unfold beginning
  cases h : search low now 3600 with
  | none =>
    rcases search_none.mp h with g | g
    · cases g
    · omega
  | some t =>
    have := search_some h
    refine ⟨_, rfl, this.1, this.2.1, this.2.2, ?_⟩
    have := hd now t
    unfold Stands
    dsimp only
    omega

/-- **C84.** It panics exactly where the instant one second ago cannot be represented. -/
theorem beginning_panics {low now sys again : Int} : beginning low now sys again = none ↔ now - second < low := by
  unfold beginning
  rw [Option.map_eq_none_iff, search_none]
  simp

/-- **C84.** From the beginning on, the time is that of day up to the same error, so differences are exact; for earlier
instants it is the beginning's. It panics exactly if that is before 1970. -/
theorem to_unix {day : Int → Int} {late : Int} {b : Int × Int} (hd : ∀ x y, day x - day y = x - y)
    (hb : Stands day late b) (t : Int) :
    toUnix b t = if 0 ≤ day (max b.1 t) - late then some (day (max b.1 t) - late) else none := by
  unfold toUnix Stands at *
  dsimp only
  split
  · rename_i h
    have := hd t b.1
    rw [show max b.1 t = t by omega, show b.2 + (t - b.1) = day t - late by omega]
  · rename_i h
    rw [show max b.1 t = b.1 by omega, show b.2 + 0 = day b.1 - late by omega]

/-- **C84.** Going back in time does not panic where the beginning is after 1970, contrary to the comment on
`to_unix_duration`, and never makes the time go forward. -/
theorem monotone {b : Int × Int} (hb : 0 ≤ b.2) {t t' : Int} (h : t ≤ t') :
    ∃ d d', toUnix b t = some d ∧ toUnix b t' = some d' ∧ d ≤ d' := by
  have key : ∀ t, toUnix b t = some (b.2 + (if b.1 ≤ t then t - b.1 else 0)) := by
    intro t
    unfold toUnix
    dsimp only
    rw [if_pos]
    split <;> omega
  exact ⟨_, _, key t, key t', by split <;> split <;> omega⟩

/-- **C84.** The random has 32 bytes, the first four are the seconds since 1970 modulo 2^32, the others are those drawn. -/
theorem random_at {b : Int × Int} {t : Int} {rnd r : Bytes} (hr : rnd.length = 28) (h : randomAt b t rnd = some r) :
    ∃ d, toUnix b t = some d ∧ 0 ≤ d ∧ r.length = 32 ∧ r.drop 4 = rnd ∧
      (ofBe (r.take 4) : Int) = d / second % 2 ^ 32 := by
  obtain ⟨d, hd, rfl⟩ := Option.map_eq_some_iff.mp h
  have h0 : 0 ≤ d := by
    unfold toUnix at hd
    dsimp only at hd
    split at hd
    · split at hd
      · cases hd; assumption
      · cases hd
    · split at hd
      · cases hd; assumption
      · cases hd
  have h4 : (beBytes 4 ((d / second).toNat % 2 ^ 32)).length = 4 := beBytes_length ..
  refine ⟨d, hd, h0, by simp [hr], ?_, ?_⟩
  · rw [List.drop_append_of_le_length (by omega), List.drop_of_length_le (by omega), List.nil_append]
  · rw [List.take_append_of_le_length (by omega), List.take_of_length_le (by omega),
      ofBe_beBytes_of_lt (by omega)]
    have : 0 ≤ d / second := Int.ediv_nonneg h0 (by decide)
    omega

/-! ## Instances -/

/-- A machine that is up for 90.5 seconds, whose platform has no earlier instants: the beginning is half a second after it
was started, and an instant before that counts as the beginning. -/
example :
    let b := beginning 0 90500000000 1700000000000000000 90500000200
    b = some (500000000, 1699999909999999800) ∧
    (b.bind fun b => toUnix b 91500000000) = some 1700000000999999800 ∧
    (b.bind fun b => toUnix b 7) = some 1699999909999999800 ∧
    (b.bind fun b => (randomAt b 91500000000 (List.replicate 28 5)).map (·.take 5)) = some [0x65, 0x53, 0xF1, 0x00, 5] ∧
    beginning 0 999999999 1700000000000000000 1000000000 = none := by decide +kernel

end Verif.Props.Clock

import Verif.Model.Config
/-!
# C49: which configurations are built
-/
namespace Verif.Props.Config
open Verif.Config

/-- Specification in terms of the accessors an endpoint uses. -/
structure Usable (c : Config) : Prop where
  mtu : 64 ≤ c.mtu
  limit : 0 < c.aeadLimit
  suite : c.dtls12Suites ≠ [] ∨ c.dtls13Suites ≠ []
  psk : c.psk = true → ∃ s ∈ c.dtls12Suites, isPsk s = true
  noPsk : c.psk = false → ∀ s ∈ c.dtls12Suites, isPsk s = false
  groups : ((∃ s ∈ c.dtls12Suites, isPsk s = false) ∨ c.dtls13Suites ≠ []) → c.kxGroups ≠ []

/-- The configuration a builder describes, before any check. -/
def described (b : Builder) (p : Provider) : Config :=
  { provider := p, mtu := b.mtu, aeadLimit := b.aeadLimit, suites12 := b.suites12,
    suites13 := b.suites13, groups := b.groups, psk := b.psk }

theorem suites12_eq (f : Option (List Nat)) (l : List Nat) (psk : Bool) :
    enabled12 f psk l = (l.filter (allows f)).filter fun s => psk || !isPsk s := by
  cases f with
  | none =>
    have : l.filter (allows none) = l := List.filter_eq_self.2 (fun _ _ => rfl)
    rw [this]; rfl
  | some x => rfl

theorem suites13_eq (f : Option (List Nat)) (l : List Nat) :
    count13 f l = (l.filter (allows f)).length := by
  cases f with
  | none => rw [show allows none = fun _ => true from rfl, List.filter_eq_self.2 (by simp)]; rfl
  | some x => rfl

theorem groups_eq (f : Option (List Nat)) (l : List Nat) :
    l.filter (filteredKx f) = l.filter (allows f) := by
  cases f <;> rfl

/-- **C49.** For every builder input and provider: building succeeds exactly when the provider is
valid and the described configuration is usable, and then yields that configuration. -/
theorem build_iff_usable (b : Builder) (p : Provider) (c : Config) :
    build b p = .ok c ↔ p.valid = true ∧ Usable (described b p) ∧ c = described b p := by
  obtain ⟨mtu, lim, s12, s13, gr, psk⟩ := b
  have e12 := suites12_eq s12 p.suites12 psk
  have e13 := suites13_eq s13 p.suites13
  have eg := groups_eq gr p.groups
  unfold build
  simp only [e12, e13, eg]
  clear e12 e13 eg
  have hd : (described ⟨mtu, lim, s12, s13, gr, psk⟩ p) =
    { provider := p, mtu := mtu, aeadLimit := lim, suites12 := s12, suites13 := s13, groups := gr,
      psk := psk } := rfl
  rw [← hd]
  rw [show (p.suites12.filter (allows s12)).filter (fun s => psk || !isPsk s) =
      (described ⟨mtu, lim, s12, s13, gr, psk⟩ p).dtls12Suites from rfl,
    show p.suites13.filter (allows s13) = (described ⟨mtu, lim, s12, s13, gr, psk⟩ p).dtls13Suites from rfl,
    show p.groups.filter (allows gr) = (described ⟨mtu, lim, s12, s13, gr, psk⟩ p).kxGroups from rfl]
  clear hd
  have hm : (described ⟨mtu, lim, s12, s13, gr, psk⟩ p).mtu = mtu := rfl
  have hl : (described ⟨mtu, lim, s12, s13, gr, psk⟩ p).aeadLimit = lim := rfl
  have hp : (described ⟨mtu, lim, s12, s13, gr, psk⟩ p).psk = psk := rfl
  have hnp : psk = false → ∀ s ∈ (described ⟨mtu, lim, s12, s13, gr, psk⟩ p).dtls12Suites, isPsk s = false := by
    intro h s hs
    subst h
    simp only [Config.dtls12Suites, hp, List.mem_filter] at hs
    simpa using hs.2
  generalize described ⟨mtu, lim, s12, s13, gr, psk⟩ p = d at *
  constructor
  · intro h
    repeat' split at h
    all_goals first | (simp at h; done) | skip
    rename_i h1 h2 h3 h4 h5 h6 h7
    simp only [Except.ok.injEq] at h
    refine ⟨by simpa using h1, ⟨by omega, by omega, ?_, ?_, by rw [hp]; exact hnp, ?_⟩, h.symm⟩
    · rcases Classical.em (d.dtls12Suites = []) with h12 | h12
      · right; intro h13; apply h4; simp [h12, h13]
      · exact Or.inl h12
    · intro hpsk
      rw [hp] at hpsk
      simp only [hpsk, Bool.true_and] at h5
      simpa using h5
    · intro hx hk
      rcases hx with ⟨s, hs, hs2⟩ | h13
      · apply h6
        simp only [hk, List.length_nil, decide_true, Bool.and_true, List.any_eq_true]
        exact ⟨s, hs, by simp [hs2]⟩
      · apply h7
        have : 0 < d.dtls13Suites.length := List.length_pos_iff.2 h13
        simp [hk, this]
  · rintro ⟨h1, hu, rfl⟩
    have hmtu := hu.mtu
    have hlim := hu.limit
    rw [if_neg (by simp [h1]), if_neg (by omega), if_neg (by omega)]
    rw [if_neg]
    · rw [if_neg]
      · rw [if_neg]
        · rw [if_neg]
          intro hc
          simp only [Bool.and_eq_true, decide_eq_true_eq] at hc
          exact hu.groups (Or.inr (List.length_pos_iff.1 hc.1)) (List.length_eq_zero_iff.1 hc.2)
        · intro hc
          simp only [Bool.and_eq_true, decide_eq_true_eq, List.any_eq_true] at hc
          obtain ⟨⟨s, hs, hs2⟩, hk⟩ := hc
          exact hu.groups (Or.inl ⟨s, hs, by simpa using hs2⟩) (List.length_eq_zero_iff.1 hk)
      · intro hc
        simp only [Bool.and_eq_true, Bool.not_eq_true'] at hc
        obtain ⟨s, hs, hs2⟩ := hu.psk (by rw [hp]; exact hc.1)
        have := hc.2
        rw [List.any_eq_false] at this
        exact this s hs hs2
    · intro hc
      rcases hu.suite with h12 | h13
      · have := List.length_pos_iff.2 h12; omega
      · have := List.length_pos_iff.2 h13; omega

def sampleProvider : Provider :=
  { suites12 := [0xC02C, 0xC02B, 0xC0A8], suites13 := [0x1301], groups := [29, 23], selfTestOk := true }

def sampleBuilder : Builder := ⟨1150, 8388608, none, none, none, false⟩
def badBuilder : Builder := ⟨1150, 1, some [0xC0A8], some [], none, false⟩

example : build sampleBuilder sampleProvider = .ok (described sampleBuilder sampleProvider) := by
  rfl
example : build badBuilder sampleProvider = .error .noCipherSuites := by rfl

end Verif.Props.Config

import Verif.Props.Msg13
import Verif.Props.Hybrid
/-!
# The hybrid ClientHello is read by servers of both versions (C57)
-/
namespace Verif.Props.MsgHybrid
open Verif Verif.Msg Verif.Wire
open Verif.Props.Msg
open Verif.Props.Hybrid
open Verif.Props.Msg12 (filter_self)
open Verif.Dtls (Env Hybrid hybridBody hybridHead hybridExts padded extBytes)

theorem ext_eq : extBytes = putExt := by
  funext e; simp [extBytes, putExt, putVec]

/-- The body as a ClientHello of the presentation language. -/
theorem body_eq (mtu : Nat) (random : Bytes) (suites groups : List Nat) (group : Nat) (pub : Bytes) :
    hybridBody mtu random suites groups group pub =
      clientHello 0xFEFD random [] [] suites [0]
        (padded mtu (hybridHead random suites).length (hybridExts groups group pub)) := by
  rw [clientHello_eq]
  unfold hybridBody
  simp only
  rw [← flat_exts, ext_eq]
  have h : hybridHead random suites = putHead 0xFEFD random [] [] ++ putList 2 suites ++ putVec 1 [0] := by
    have h2 := flat2 suites
    simp only [hybridHead, putHead, putList, putVec, h2]
    simp [beBytes, Nat.mul_comm]
  rw [h]
  simp [putExts, putVec]

theorem exts_fit (mtu : Nat) (hm : mtu < 65536) (random : Bytes) (suites groups : List Nat) (group : Nat) (pub : Bytes)
    (hgl : groups.length ≤ 4) (hpub : pub.length < 60000) :
    Fits (padded mtu (hybridHead random suites).length (hybridExts groups group pub))
    ∧ ((padded mtu (hybridHead random suites).length (hybridExts groups group pub)).flatMap putExt).length < 65536 := by
  have hfl := flat2 groups
  constructor
  · intro e he
    have : e ∈ hybridExts groups group pub ∨ ∃ k, k < 65536 ∧ e = (0x15, List.replicate k 0) := by
      unfold padded at he
      dsimp only at he
      split at he
      · rcases List.mem_append.mp he with h | h
        · exact .inl h
        · refine .inr ⟨_, ?_, List.mem_singleton.mp h⟩
          omega
      · exact .inl he
    rcases this with he | ⟨k, hk, rfl⟩
    · simp only [hybridExts, List.mem_cons, List.not_mem_nil, or_false] at he
      rcases he with rfl | rfl | rfl | rfl | rfl | rfl | rfl | rfl <;>
        simp only [List.length_append, beBytes_length, hfl, List.length_cons, List.length_nil] <;> omega
    · simpa using hk
  · rw [← ext_eq, flat_exts, padded_sum, exts_sum]
    split <;> omega

theorem known_padded (supported : List Nat) (h : supported.contains 0x15 = false) (mtu n : Nat) (es : List (Nat × Bytes)) :
    known supported (padded mtu n es) = known supported es := by
  unfold padded
  dsimp only
  split
  · simp [known, List.filter_append] at h ⊢
    exact h
  · rfl

theorem filter_append_left {l m : List Nat} {p : Nat → Bool} (h : ∀ x ∈ l, p x = true) (h' : ∀ x ∈ m, p x = false) :
    (l ++ m).filter p = l := by
  rw [List.filter_append, filter_self h, List.filter_eq_nil_iff.mpr (fun x hx => by simp [h' x hx]), List.append_nil]

theorem filter_append_right {l m : List Nat} {p : Nat → Bool} (h : ∀ x ∈ l, p x = false) (h' : ∀ x ∈ m, p x = true) :
    (l ++ m).filter p = m := by
  rw [List.filter_append, filter_self h', List.filter_eq_nil_iff.mpr (fun x hx => by simp [h x hx]), List.nil_append]

/-- The hybrid ClientHello as a DTLS 1.3 server reads it: the 1.3 suites, both versions, all groups, and the
key share for the first. The same hello as a DTLS 1.2 server reads it: the 1.2 suites that need no
pre-shared key, all groups, and the extensions of DTLS 1.2. -/
theorem hybrid_read_partial (env : Env) (h : Hybrid) (hh : env.hybrid = some h) (hr : env.random.length = 32)
    (hm : env.lim.mtu < 65536) (gr : Nat) (pub : Bytes) (hg : env.groups.head? = some gr)
    (hp : env.kxStart gr = some pub) (hpub : pub.length < 60000)
    (h13 : ∀ s ∈ env.suites13, s ∈ [0x1301, 0x1302, 0x1303])
    (h12 : ∀ s ∈ env.suites12, s ∈ [0xC02C, 0xC02B, 0xCCA9, 0xC0A8])
    (hgs : ∀ g ∈ env.groups, g ∈ [0x001D, 0x0017, 0x0018, 0x0019]) :
    (∀ u, env.suites13 ≠ [] → env.suites13.length ≤ 3 →
      ∃ c, opt (Msg13.parseClientHello u h.body) = some ([], c) ∧ c.version = 0xFEFD ∧ c.random = h.random
        ∧ c.sessionId = [] ∧ c.cookie = [] ∧ c.suites = env.suites13 ∧ c.compressions = [0]
        ∧ c.exts.map (·.1) = [43, 10, 51, 13, 14]
        ∧ (∀ d, (43, d) ∈ c.exts → val (Msg13.parseClientVersions d) = some [0xFEFC, 0xFEFD])
        ∧ (∀ d, (10, d) ∈ c.exts → val (parseGroups d) = some env.groups)
        ∧ (∀ d, (51, d) ∈ c.exts → val (Msg13.parseClientShares d) = some [(gr, pub)]))
    ∧ ((env.suites12.filter fun s => !env.isPsk s) ≠ [] → (env.suites12.filter fun s => !env.isPsk s).length ≤ 4 →
      ∃ c, opt (Msg12.parseClientHello h.body) = some ([], c) ∧ c.version = 0xFEFD ∧ c.random = h.random
        ∧ c.sessionId = [] ∧ c.cookie = [] ∧ c.suites = (env.suites12.filter fun s => !env.isPsk s)
        ∧ c.compressions = [0] ∧ c.exts.map (·.1) = [10, 13, 14, 11, 23, 0xFF01]
        ∧ (∀ d, (10, d) ∈ c.exts → val (parseGroups d) = some env.groups)) := by
  obtain ⟨g, gs, pub', suites, hg', hp', hs, hs1, hg1, hr1, hb⟩ := hybrid_parts env h hh
  rw [hg'] at hg
  cases hg
  rw [hp] at hp'
  cases hp'
  rw [hb, body_eq, hr1]
  have hfit := exts_fit env.lim.mtu hm env.random suites env.groups gr pub hg1 hpub
  have hF : HelloFits 0xFEFD env.random [] [] suites [0]
      (padded env.lim.mtu (hybridHead env.random suites).length (hybridExts env.groups gr pub)) :=
    { version := by omega, random := hr, sid := by simp, cookie := by simp,
      suites := ⟨fun x hx => by
        rw [hs] at hx
        rcases List.mem_append.mp hx with hx | hx
        · have := h13 x hx; simp at this; omega
        · have := h12 x (List.mem_filter.mp hx).1; simp at this; omega, by omega⟩,
      compressions := by simp,
      exts := ⟨hfit.1, by rw [extension_eq]; exact hfit.2⟩ }
  have hgroups : val (parseGroups (beBytes 2 (env.groups.length * 2) ++ env.groups.flatMap (beBytes 2)))
      = some env.groups := by
    have := Msg12.groups_read env.groups (fun g h => by have := hgs g h; simp at this; omega) (by omega)
    rw [filter_self (fun g h => by have := hgs g h; simp at this; simpa using this), if_pos hg1, prefixed_eq,
      Msg13.num2_eq, putVec, flat2, Nat.mul_comm] at this
    exact this
  constructor
  · intro u hn hl
    rw [Msg13.client_hello_read u _ _ _ _ _ _ _ hF]
    have hk : suites.filter (fun s => [0x1301, 0x1302, 0x1303].contains s) = env.suites13 := by
      rw [hs]
      refine filter_append_left (fun x hx => by have := h13 x hx; simp at this; simpa using this) (fun x hx => ?_)
      have := h12 x (List.mem_filter.mp hx).1
      simp at this
      rcases this with rfl | rfl | rfl | rfl <;> rfl
    have hkn : (padded env.lim.mtu (hybridHead env.random suites).length (hybridExts env.groups gr pub)).filter
        (fun e => [43, 10, 13, 51, 14, 44].contains e.1) = known [43, 10, 13, 51, 14, 44] (hybridExts env.groups gr pub) :=
      known_padded _ (by decide) _ _ _
    rw [hk, hkn, if_pos ⟨(fun e => hn (by rw [← hk, e]; rfl)), Or.inr hn, hl, by decide,
      (once_iff _ _).mpr (by rw [known_padded _ (by decide)]; simp [known, hybridExts])⟩]
    refine ⟨_, rfl, rfl, rfl, rfl, rfl, rfl, rfl, rfl, ?_, ?_, ?_⟩
    · intro d hd
      have : d = [4, 0xFE, 0xFC, 0xFE, 0xFD] := by simpa [known, hybridExts] using hd
      rw [this]
      decide +kernel
    · intro d hd
      have : d = beBytes 2 (env.groups.length * 2) ++ env.groups.flatMap (beBytes 2) := by
        simpa [known, hybridExts] using hd
      rw [this]
      exact hgroups
    · intro d hd
      have : d = beBytes 2 (4 + pub.length) ++ (beBytes 2 gr ++ beBytes 2 pub.length ++ pub) := by
        simpa [known, hybridExts] using hd
      rw [this]
      have hgm := hgs gr (by rw [hg']; simp)
      have hsr := Msg13.shares_read [(gr, pub)] (by simp; simp at hgm; omega) (by
        simp only [List.flatMap_cons, List.flatMap_nil, List.append_nil, num_eq, prefixed_eq, List.length_append,
          beBytes_length, putVec_length]
        omega)
      have hgc : [0x001D, 0x0017, 0x0018, 0x0019].contains gr = true := by simp at hgm; simpa using hgm
      simp only [List.flatMap_cons, List.flatMap_nil, List.append_nil, prefixed_eq, num_eq,
        List.filter_cons, hgc, if_true, List.filter_nil] at hsr
      rw [if_pos (by simp)] at hsr
      rw [← hsr]
      congr 2
      simp only [putVec, List.length_append, beBytes_length, List.append_assoc]
      rw [show 2 + (2 + pub.length) = 4 + pub.length from by omega]
  · intro hn hl
    rw [Msg12.client_hello_read _ _ _ _ _ _ _ hF]
    have hk : suites.filter (fun s => [0xC02C, 0xC02B, 0xCCA9, 0xC0A8].contains s)
        = (env.suites12.filter fun s => !env.isPsk s) := by
      rw [hs]
      refine filter_append_right (fun x hx => ?_) (fun x hx => by
        have := h12 x (List.mem_filter.mp hx).1; simp at this; simpa using this)
      have := h13 x hx
      simp at this
      rcases this with rfl | rfl | rfl <;> rfl
    have hkn : (padded env.lim.mtu (hybridHead env.random suites).length (hybridExts env.groups gr pub)).filter
        (fun e => [10, 11, 13, 14, 22, 23, 0xFF01, 35].contains e.1)
        = known [10, 11, 13, 14, 22, 23, 0xFF01, 35] (hybridExts env.groups gr pub) :=
      known_padded _ (by decide) _ _ _
    rw [hk, hkn, if_pos ⟨hn, hl, by decide,
      (once_iff _ _).mpr (by rw [known_padded _ (by decide)]; simp [known, hybridExts])⟩]
    refine ⟨_, rfl, rfl, rfl, rfl, rfl, rfl, rfl, rfl, ?_⟩
    intro d hd
    have : d = beBytes 2 (env.groups.length * 2) ++ env.groups.flatMap (beBytes 2) := by
      simpa [known, hybridExts] using hd
    rw [this]
    exact hgroups

/-- A configuration with both kinds of suites meets the hypotheses. -/
example : (∃ h, Props.Dtls.demo.hybrid = some h) ∧ Props.Dtls.demo.random.length = 32 ∧ Props.Dtls.demo.lim.mtu < 65536
    ∧ Props.Dtls.demo.groups.head? = some 29 ∧ Props.Dtls.demo.kxStart 29 = some [5]
    ∧ (∀ s ∈ Props.Dtls.demo.suites13, s ∈ [0x1301, 0x1302, 0x1303])
    ∧ (∀ s ∈ Props.Dtls.demo.suites12, s ∈ [0xC02C, 0xC02B, 0xCCA9, 0xC0A8])
    ∧ (∀ g ∈ Props.Dtls.demo.groups, g ∈ [0x001D, 0x0017, 0x0018, 0x0019])
    ∧ (Props.Dtls.demo.suites12.filter fun s => !Props.Dtls.demo.isPsk s) ≠ [] := by
  refine ⟨Option.isSome_iff_exists.mp (by decide +kernel), by decide, by decide, by decide, by decide, by decide,
    by decide, by decide, by decide⟩

end Verif.Props.MsgHybrid

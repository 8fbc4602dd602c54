import Verif.Model.Config
import Verif.Props.Kx
import Verif.Lemmas.Ends13
/-!
# C86: the order of preference of key-exchange groups

`ConfigBuilder::kx_groups` (`src/config.rs:444-453`) promises: "Order determines preference (first = most preferred)".
-/
namespace Verif.Props.Prefer
open Verif Verif.Config

/-- Specification of the promise: those of the caller's groups that the provider has, in the caller's order. -/
def promised (list provider : List Nat) : List Nat := list.filter fun g => provider.contains g

/-- **C86, what holds.** The groups used are exactly those promised, as a set. -/
theorem same_groups (c : Config) (hl : c.groups = some list) (g : Nat) :
    g ∈ c.kxGroups ↔ g ∈ promised list c.provider.groups := by
  unfold Config.kxGroups promised allows
  rw [hl]
  simp [and_comm]

/-- **C86, what holds.** They come in the caller's order if that agrees with the provider's. -/
theorem prefers_partial (c : Config) (hl : c.groups = some list) (hn : c.provider.groups.Nodup)
    (hs : (promised list c.provider.groups).Sublist c.provider.groups) :
    c.kxGroups = promised list c.provider.groups := by
  have key : ∀ {l s : List Nat}, s.Sublist l → l.Nodup → l.filter (fun g => s.contains g) = s := by
    intro l s h
    induction h with
    | slnil => intro _; rfl
    | @cons s l a h ih =>
      intro hn
      rw [List.nodup_cons] at hn
      have : s.contains a = false := by
        simpa using fun hm => hn.1 (h.subset hm)
      rw [List.filter_cons, this]
      exact ih hn.2
    | @cons_cons s l a h ih =>
      intro hn
      rw [List.nodup_cons] at hn
      rw [List.filter_cons]
      simp only [List.contains_cons, beq_self_eq_true, Bool.true_or, if_true]
      congr 1
      refine Eq.trans (List.filter_congr ?_) (ih hn.2)
      intro x hx
      have : (x == a) = false := by
        simpa using fun (e : x = a) => hn.1 (e ▸ hx)
      rw [this, Bool.false_or]
  refine Eq.trans ?_ (key hs hn)
  unfold Config.kxGroups
  refine List.filter_congr fun g hg => ?_
  rw [hl]
  unfold allows promised
  dsimp only
  rw [Bool.eq_iff_iff]
  simp [hg]

/-- **C86, refuted.** Lists with the same groups in any order and multiplicity give the same configuration to an endpoint. -/
theorem order_ignored (c c' : Config) (hp : c'.provider = c.provider) (hl : c.groups = some l) (hl' : c'.groups = some l')
    (h : ∀ g, g ∈ l ↔ g ∈ l') : c'.kxGroups = c.kxGroups := by
  unfold Config.kxGroups
  rw [hp, hl, hl']
  refine List.filter_congr fun g _ => ?_
  unfold allows
  rw [Bool.eq_iff_iff]
  simp [h g]

/-- A DTLS 1.2 server takes the first of its groups that the client has. -/
theorem picks12 (gs server : List Nat) (g : Nat) :
    E12.S12.selectGroup (some gs) server = some g ↔
      ∃ a b, server = a ++ g :: b ∧ g ∈ gs ∧ ∀ x ∈ a, x ∉ gs := by
  unfold E12.S12.selectGroup
  rw [List.find?_eq_some_iff_append]
  constructor
  · rintro ⟨h, a, b, e, n⟩
    exact ⟨a, b, e, by simpa using h, fun x hx => by simpa using n x hx⟩
  · rintro ⟨a, b, e, h, n⟩
    exact ⟨by simpa using h, a, b, e, fun x hx => by simpa using n x hx⟩

/-- A DTLS 1.3 server takes the first key share of the client's, in the client's order, that is in one of its groups. -/
theorem picks13 (env : E13.PEnv) (shares : List (Nat × Bytes)) (k : Nat × Bytes) :
    E13.S13.selectShare env shares = some k ↔
      ∃ a b, shares = a ++ k :: b ∧ k.1 ∈ env.groups ∧ ∀ x ∈ a, x.1 ∉ env.groups := by
  unfold E13.S13.selectShare
  rw [List.find?_eq_some_iff_append]
  constructor
  · rintro ⟨h, a, b, e, n⟩
    exact ⟨a, b, e, by simpa using h, fun x hx => by simpa using n x hx⟩
  · rintro ⟨a, b, e, h, n⟩
    exact ⟨by simpa using h, a, b, e, fun x hx => by simpa using n x hx⟩

section
open E13 E13.C13 M

/-- A DTLS 1.3 client offers a key share in the first of its groups, or in the one a HelloRetryRequest asked for if that is one
of them. -/
theorem offers13 (env : PEnv) (s : Ses CSt) : wp (sendClientHello env) s
    (fun _ s' => ∃ n g, s'.kx = some (n, g) ∧ g ∈ env.groups ∧
      (s.retryGroup = none → ∃ l, env.groups = g :: l) ∧ ∀ r, s.retryGroup = some r → g = r) (fun _ _ => True) := by
  unfold sendClientHello
  simp only [bind_eq, pure_eq]
  rw [wp_bind, wp_get, wp_bind]
  refine wp_orPanic_of (fun r _ => ?_) trivial
  rw [wp_bind, wp_onEng', wp_bind]
  refine wp_orFatal_of (fun g hg => ?_) trivial
  rw [wp_bind]
  refine wp_check_of (fun hc => ?_) trivial
  rw [wp_bind, wp_drawTick, wp_bind]
  refine wp_orFatal_of (fun p _ => ?_) trivial
  rw [wp_bind, wp_modify, wp_bind, wp_onEng]
  refine wp_of (fun _ _ _ => ⟨_, g, rfl, by simpa using hc, fun hr => ?_, fun r hr => ?_⟩) (fun _ _ _ => trivial)
  · rw [hr] at hg
    exact List.head?_eq_some_iff.mp hg
  · rw [hr] at hg
    exact (Option.some.inj hg).symm

end

/-- **C86.** So, with the promise, a server of DTLS 1.2 uses the best of its groups where its list is ordered as the
provider's. -/
theorem best12_partial (c : Config) (hl : c.groups = some list) (hn : c.provider.groups.Nodup)
    (hs : (promised list c.provider.groups).Sublist c.provider.groups)
    (h : E12.S12.selectGroup (some gs) c.kxGroups = some g) :
    ∃ a b, promised list c.provider.groups = a ++ g :: b ∧ g ∈ gs ∧ ∀ x ∈ a, x ∉ gs := by
  rw [prefers_partial c hl hn hs] at h
  exact (picks12 ..).mp h

/-! ## Runs -/

/-- The back ends' provider, `ALL_KX_GROUPS`. -/
def provider : Provider := { suites12 := [0xC02B], suites13 := [0x1301], groups := [29, 23, 24], selfTestOk := true }

/-- A caller who prefers P-256 to X25519. -/
def wish : Builder :=
  { mtu := 1150, aeadLimit := 8388608, suites12 := none, suites13 := none, groups := some [23, 29], psk := false }

example : promised [23, 29] provider.groups = [23, 29] := by decide

/-- `kxGroups` of what `build` makes of a builder. -/
def groupsOf (b : Builder) : List Nat := match build b provider with
  | .ok c => c.kxGroups
  | .error _ => []

/-- Environments with these groups; a key exchange in another group than `g` fails. -/
def env12 (gs : List Nat) (g : Nat) : E12.PEnv :=
  Msg12.codec { Kx.with12 MsgDemo.cert12 Kx.toy .awsLc with
    groups := gs, providerGroups := provider.groups
    kxStart := fun n k => if k = g then Verif.Kx.start Kx.toy n k else none } true [77, 78]

def env13 (gs : List Nat) (g : Nat) : E13.PEnv :=
  Msg13.codec { Kx.with13 MsgDemo.full13 Kx.toy .awsLc with
    groups := gs
    kxStart := fun n k => if k = g then Verif.Kx.start Kx.toy n k else none } 150 [77, 78]

/-- **C86, refuted.** Two ends whose callers both prefer P-256 connect with X25519, in both versions: X25519 is the only group
that works, with P-256 alone neither connects. -/
theorem not_preferred :
    let gs := groupsOf wish
    let d := Sigs.mixed (env12 gs 29) (env12 gs 29) 3
    let d' := Sigs.mixed (env12 gs 23) (env12 gs 23) 3
    let f := E13.Demo.rounds (env13 gs 29) (env13 gs 29) 4
    let f' := E13.Demo.rounds (env13 gs 23) (env13 gs 23) 4
    gs = [29, 23] ∧
    d.client.st = .awaitApplicationData ∧ d.server.st = .awaitApplicationData ∧
    f.client.st = .awaitApplicationData ∧ f.server.st = .awaitApplicationData ∧
    d'.server.st ≠ .awaitApplicationData ∧ f'.server.st ≠ .awaitApplicationData := by decide +kernel

/-- With the groups in the order asked for, it would be P-256 in DTLS 1.2 and 1.3. -/
theorem would_be :
    let d := Sigs.mixed (env12 [23, 29] 23) (env12 [23, 29] 23) 3
    let f := E13.Demo.rounds (env13 [23, 29] 23) (env13 [23, 29] 23) 4
    d.client.st = .awaitApplicationData ∧ d.server.st = .awaitApplicationData ∧
    f.client.st = .awaitApplicationData ∧ f.server.st = .awaitApplicationData := by decide +kernel

end Verif.Props.Prefer

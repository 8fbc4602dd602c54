import Verif.Props.Dtls
/-!
# The hybrid ClientHello of the auto-sensing client: size, layout
-/
namespace Verif.Props.Hybrid
open Verif Verif.Dtls Verif.Props.Dtls
open Verif.E12 (Call Ret ApiRes Output toApi)

/-! ## Size (C09) -/

/-- Size of the datagram before padding, for `n` suites, `g` groups and a public key of `k` bytes. -/
def base (n g k : Nat) : Nat := 130 + 2 * n + 2 * g + k

theorem flat2 (l : List Nat) : (l.flatMap (beBytes 2)).length = 2 * l.length := by
  induction l with
  | nil => rfl
  | cons a l ih => simp [ih]; omega

theorem exts_sum (groups : List Nat) (g : Nat) (pub : Bytes) :
    ((hybridExts groups g pub).map fun e => 4 + e.2.length).sum = 63 + 2 * groups.length + pub.length := by
  have h : (groups.flatMap (beBytes 2)).length = 2 * groups.length := flat2 groups
  simp only [hybridExts, List.map_cons, List.map_nil, List.sum_cons, List.sum_nil, List.length_append,
    List.length_cons, List.length_nil, beBytes_length, h]
  omega

theorem head_length (random : Bytes) (suites : List Nat) :
    (hybridHead random suites).length = 8 + random.length + 2 * suites.length := by
  have h := flat2 suites
  simp only [hybridHead, List.length_append, List.length_cons, List.length_nil, beBytes_length, h]
  omega

theorem flat_exts (l : List (Nat × Bytes)) : (l.flatMap extBytes).length = (l.map fun e => 4 + e.2.length).sum := by
  induction l with
  | nil => rfl
  | cons a l ih => simp [ih, extBytes]; omega

theorem padded_sum (mtu n : Nat) (l : List (Nat × Bytes)) :
    ((padded mtu n l).map fun e => 4 + e.2.length).sum =
      if mtu - (13 + 12 + (n + 2 + (l.map fun e => 4 + e.2.length).sum)) ≥ 4
      then mtu - (27 + n) else (l.map fun e => 4 + e.2.length).sum := by
  unfold padded
  generalize hS : (l.map fun e => 4 + e.2.length).sum = S
  by_cases h : mtu - (13 + 12 + (n + 2 + S)) ≥ 4
  · rw [if_pos h, if_pos h, List.map_append, List.sum_append, hS]
    simp
    omega
  · rw [if_neg h, if_neg h, hS]

/-- What the hybrid ClientHello was made from. -/
theorem hybrid_parts (env : Env) (h : Hybrid) (hh : env.hybrid = some h) :
    ∃ g gs pub suites, env.groups = g :: gs ∧ env.kxStart g = some pub ∧
      suites = env.suites13 ++ env.suites12.filter (fun s => !env.isPsk s) ∧ suites.length ≤ 16 ∧
      env.groups.length ≤ 4 ∧ h.random = env.random ∧
      h.body = hybridBody env.lim.mtu env.random suites env.groups g pub := by
  unfold Env.hybrid at hh
  split at hh
  · cases hh
  · next g gs hg =>
    split at hh
    · cases hh
    · next pub hp =>
      dsimp only at hh
      split at hh
      · cases hh
      · next hn =>
        cases hh
        refine ⟨g, gs, pub, _, hg, hp, rfl, by omega, by omega, rfl, ?_⟩
        rfl

theorem wire_length (h : Hybrid) : h.wire.length = 25 + h.body.length := by
  simp [Hybrid.wire, Hybrid.fragment]
  omega

/-- The size of the hybrid ClientHello: padded to the MTU exactly if that takes at least four bytes,
its natural size otherwise. -/
theorem hybrid_length (env : Env) (h : Hybrid) (hh : env.hybrid = some h) (hr : env.random.length = 32) :
    ∃ n g k, n = env.suites13.length + (env.suites12.filter fun s => !env.isPsk s).length ∧ g = env.groups.length ∧
      (∃ gr pub, env.groups.head? = some gr ∧ env.kxStart gr = some pub ∧ k = pub.length) ∧
      h.wire.length = if env.lim.mtu < base n g k + 4 then base n g k else env.lim.mtu := by
  obtain ⟨g, gs, pub, suites, hg, hp, hs, hs1, hg1, hr1, hb⟩ := hybrid_parts env h hh
  refine ⟨suites.length, env.groups.length, pub.length, by rw [hs, List.length_append], rfl,
    ⟨g, pub, by rw [hg]; rfl, hp, rfl⟩, ?_⟩
  rw [wire_length, hb]
  unfold hybridBody
  dsimp only
  simp only [List.length_append, beBytes_length, flat_exts, padded_sum, head_length, exts_sum, hr]
  generalize env.lim.mtu = mtu
  generalize pub.length = k
  generalize suites.length = n
  generalize env.groups.length = g
  have hb : base n g k = 130 + 2 * n + 2 * g + k := rfl
  by_cases h1 : mtu < base n g k + 4
  · rw [if_pos h1, if_neg (by omega)]
    omega
  · rw [if_neg h1, if_pos (by omega)]
    omega

/-- An auto-sensing client's datagrams fit the MTU if and only if the unpadded hello does. -/
theorem hybrid_fits_partial (env : Env) (h : Hybrid) (hh : env.hybrid = some h) (hr : env.random.length = 32)
    (gr : Nat) (pub : Bytes) (hg : env.groups.head? = some gr) (hp : env.kxStart gr = some pub) :
    h.wire.length ≤ env.lim.mtu ↔
      130 + 2 * (env.suites13.length + (env.suites12.filter fun s => !env.isPsk s).length) + 2 * env.groups.length +
        pub.length ≤ env.lim.mtu := by
  obtain ⟨n, g, k, rfl, rfl, ⟨gr', pub', hg', hp', rfl⟩, hl⟩ := hybrid_length env h hh hr
  rw [hg] at hg'
  cases hg'
  rw [hp] at hp'
  cases hp'
  rw [hl]
  unfold base
  split <;> omega

/-- What a pending client hands out. -/
theorem pending_packets (env : Env) (q : Auto.Pending) (h : Hybrid) (cap : Nat) (b : Bytes)
    (ho : (call env (some (.clientPending q h)) (.api (.poll cap))).1 = .out (.eng (.packet b))) : b = q.wire ∧ b.length ≤ cap := by
  simp only [call, callInner, Auto.Pending.pollOutput] at ho
  split at ho
  · split at ho
    · simp [pendingOutput] at ho
    · simp [pendingOutput] at ho
      exact ⟨ho.symm, by subst ho; omega⟩
  · simp [pendingOutput] at ho

/-- With the smallest MTU the configuration accepts (64, `src/config.rs:509`) an auto-sensing client
sends a datagram of more than twice that size. -/
theorem hybrid_exceeds_mtu :
    let env := { demo with lim := { demo.lim with mtu := 64 } }
    ∃ b : Bytes, (run env (newAuto env 0) [.setActive true, .api (.timeout 0), .api (.poll 2000)]).1 =
        [.res .ok, .res .ok, .out (.eng (.packet b))] ∧ b.length > 2 * env.lim.mtu := by
  refine ⟨(((({ demo with lim := { demo.lim with mtu := 64 } } : Env).hybrid)).map (·.wire)).getD [], ?_⟩
  decide +kernel

/-- With a sufficient one it is padded to the MTU. -/
example : ∃ h, demo.hybrid = some h ∧ h.wire.length = demo.lim.mtu ∧ demo.random.length = 32 :=
  ⟨_, rfl, by decide +kernel, by decide +kernel⟩

/-! ## Layout (C45) -/

/-- Reads a list of extensions: type, length, data (RFC 8446 section 4.2). The first argument bounds
their number. -/
def readExts : Nat → Bytes → Option (List (Nat × Bytes))
  | _, [] => some []
  | 0, _ => none
  | n + 1, a :: b :: c :: d :: rest =>
    if (ofBe [c, d]) ≤ rest.length then
      (readExts n (rest.drop (ofBe [c, d]))).map ((ofBe [a, b], rest.take (ofBe [c, d])) :: ·)
    else none
  | _, _ => none

theorem be2 (v : Nat) : ∃ a b, beBytes 2 v = [a, b] := by
  have h := beBytes_length 2 v
  match hb : beBytes 2 v with
  | [a, b] => exact ⟨a, b, rfl⟩
  | [] | [_] | _ :: _ :: _ :: _ => rw [hb] at h; simp at h

theorem readExts_written (l : List (Nat × Bytes)) (n : Nat) (hn : l.length ≤ n)
    (hl : ∀ e ∈ l, e.1 < 65536 ∧ e.2.length < 65536) : readExts n (l.flatMap extBytes) = some l := by
  induction l generalizing n with
  | nil => cases n <;> rfl
  | cons e l ih =>
    match n, hn with
    | n + 1, hn =>
      have he := hl e (by simp)
      obtain ⟨a, b, hab⟩ := be2 e.1
      obtain ⟨c, d, hcd⟩ := be2 e.2.length
      have h1 : ofBe [a, b] = e.1 := by rw [← hab]; exact ofBe_beBytes_of_lt he.1
      have h2 : ofBe [c, d] = e.2.length := by rw [← hcd]; exact ofBe_beBytes_of_lt he.2
      have h3 : (e :: l).flatMap extBytes = a :: b :: c :: d :: (e.2 ++ l.flatMap extBytes) := by
        simp [extBytes, hab, hcd]
      rw [h3]
      unfold readExts
      rw [h2, if_pos (by simp), List.drop_left, List.take_left, ih n (by simpa using hn) (fun x hx => hl x (by simp [hx])), h1]
      rfl

/-- The hybrid ClientHello is one handshake record with epoch and sequence number 0, and in it one ClientHello
in one piece with message number 0. It goes into the transcript of DTLS 1.2 as it was sent, into that of
DTLS 1.3 without message number, offset and length of the piece. -/
theorem hybrid_header (h : Hybrid) :
    h.wire.take 13 = [22, 0xFE, 0xFD] ++ beBytes 2 0 ++ beBytes 6 0 ++ beBytes 2 (h.wire.length - 13) ∧
    h.wire.drop 13 = h.fragment ∧
    h.fragment.take 12 = [1] ++ beBytes 3 h.body.length ++ beBytes 2 0 ++ beBytes 3 0 ++ beBytes 3 h.body.length ∧
    h.fragment.drop 12 = h.body ∧
    h.transcript = h.fragment.take 4 ++ h.body := by
  have h3 : ∀ v, ∃ a b c, beBytes 3 v = [a, b, c] := fun v => ⟨_, _, _, rfl⟩
  obtain ⟨a, b, c, he⟩ := h3 h.body.length
  have hl : h.wire.length - 13 = h.fragment.length := by simp [Hybrid.wire]
  obtain ⟨x, y, hxy⟩ := be2 h.fragment.length
  refine ⟨?_, ?_, ?_, ?_, ?_⟩
  · rw [hl, Hybrid.wire, hxy]; rfl
  · rw [Hybrid.wire, hxy]; rfl
  · rw [Hybrid.fragment, he]; rfl
  · rw [Hybrid.fragment, he]; rfl
  · rw [Hybrid.fragment, Hybrid.transcript, he]; rfl

example : (demo.hybrid.map fun h => (h.wire.length, h.fragment.length, h.body.length)) = some (demo.lim.mtu, demo.lim.mtu - 13, demo.lim.mtu - 25) := by
  decide +kernel

/-- The body of the hybrid ClientHello can be read back, for every MTU that fits the length fields: the
protocol version of DTLS 1.2, empty session id and cookie, all suites, no compression, and extensions that begin with supported_versions
offering 1.3 and 1.2, name all groups and share a key for the first. -/
theorem hybrid_layout (env : Env) (h : Hybrid) (hh : env.hybrid = some h) (hm : env.lim.mtu < 65536)
    (gr : Nat) (pub : Bytes) (hg : env.groups.head? = some gr) (hp : env.kxStart gr = some pub) (hpub : pub.length < 60000) :
    ∃ exts block,
      h.body = [0xFE, 0xFD] ++ env.random ++ [0, 0] ++
        beBytes 2 (2 * (env.suites13.length + (env.suites12.filter fun s => !env.isPsk s).length)) ++
        (env.suites13 ++ env.suites12.filter fun s => !env.isPsk s).flatMap (beBytes 2) ++ [1, 0] ++
        beBytes 2 block.length ++ block ∧ block.length < 65536 ∧
      readExts 9 block = some exts ∧
      exts.lookup 0x2B = some [4, 0xFE, 0xFC, 0xFE, 0xFD] ∧
      exts.lookup 0x0A = some (beBytes 2 (2 * env.groups.length) ++ env.groups.flatMap (beBytes 2)) ∧
      exts.lookup 0x33 = some (beBytes 2 (4 + pub.length) ++ beBytes 2 gr ++ beBytes 2 pub.length ++ pub) ∧
      (∀ e ∈ exts, e.1 = 0x15 → ∀ x ∈ e.2, x = 0) ∧ (exts.map (·.1)).Nodup := by
  obtain ⟨g, gs, pub', suites, hg', hp', hs, hs1, hg1, hr1, hb⟩ := hybrid_parts env h hh
  rw [hg'] at hg
  cases hg
  rw [hp] at hp'
  cases hp'
  have hsum := exts_sum env.groups gr pub
  have hfl := flat2 env.groups
  have hx : ∀ e ∈ hybridExts env.groups gr pub, e.1 < 65536 ∧ e.2.length < 65536 ∧ e.1 ≠ 0x15 := by
    intro e he
    simp only [hybridExts, List.mem_cons, List.not_mem_nil, or_false] at he
    rcases he with rfl | rfl | rfl | rfl | rfl | rfl | rfl | rfl <;>
      simp only [List.length_append, beBytes_length, hfl, List.length_cons, List.length_nil] <;> omega
  have hpad : ∀ n, padded env.lim.mtu n (hybridExts env.groups gr pub) = hybridExts env.groups gr pub ∨
      ∃ k, k < 65536 ∧ padded env.lim.mtu n (hybridExts env.groups gr pub) =
        hybridExts env.groups gr pub ++ [(0x15, List.replicate k 0)] := by
    intro n
    unfold padded
    dsimp only
    split
    · exact .inr ⟨_, by omega, rfl⟩
    · exact .inl rfl
  refine ⟨padded env.lim.mtu (hybridHead env.random suites).length (hybridExts env.groups gr pub),
    (padded env.lim.mtu (hybridHead env.random suites).length (hybridExts env.groups gr pub)).flatMap extBytes, ?_, ?_, ?_, ?_⟩
  · rw [hb, hybridBody]
    rw [flat_exts, hybridHead, ← hs, ← List.length_append, ← hs, Nat.mul_comm 2]
  · rw [flat_exts, padded_sum, hsum]
    split <;> omega
  · apply readExts_written
    · rcases hpad (hybridHead env.random suites).length with h | ⟨k, _, h⟩ <;> rw [h] <;> simp [hybridExts]
    · intro e he
      rcases hpad (hybridHead env.random suites).length with h | ⟨k, hk, h⟩ <;> rw [h] at he
      · exact ⟨(hx e he).1, (hx e he).2.1⟩
      · rcases List.mem_append.mp he with he | he
        · exact ⟨(hx e he).1, (hx e he).2.1⟩
        · simp only [List.mem_singleton] at he
          subst he
          exact ⟨(by decide : (0x15 : Nat) < 65536), by simpa using hk⟩
  · rcases hpad (hybridHead env.random suites).length with h | ⟨k, hk, h⟩ <;> rw [h]
    · refine ⟨rfl, ?_, ?_, ?_, ?_⟩
      · rw [Nat.mul_comm]; rfl
      · simp [hybridExts, List.lookup]
      · intro e he h15
        exact absurd h15 (hx e he).2.2
      · simp [hybridExts]
    · refine ⟨rfl, ?_, ?_, ?_, ?_⟩
      · rw [Nat.mul_comm]; rfl
      · simp [hybridExts, List.lookup]
      · intro e he h15
        rcases List.mem_append.mp he with he | he
        · exact absurd h15 (hx e he).2.2
        · simp only [List.mem_singleton] at he
          subst he
          intro x hx
          exact (List.mem_replicate.mp hx).2
      · simp [hybridExts]

/-- With an MTU that the length field of the extensions cannot express the hello cannot be read back:
the field is shorter than the block it announces. -/
theorem hybrid_wraps (env : Env) (h : Hybrid) (hh : env.hybrid = some h) (hr : env.random.length = 32)
    (hm : env.lim.mtu ≥ 65536 + 4000) (gr : Nat) (pub : Bytes) (hg : env.groups.head? = some gr) (hp : env.kxStart gr = some pub) :
    ∃ pre field block, h.body = pre ++ field ++ block ∧ pre.length = 40 + 2 * (env.suites13.length +
        (env.suites12.filter fun s => !env.isPsk s).length) ∧ field.length = 2 ∧ ofBe field < block.length := by
  obtain ⟨g, gs, pub', suites, hg', hp', hs, hs1, hg1, hr1, hb⟩ := hybrid_parts env h hh
  rw [hg'] at hg
  cases hg
  rw [hp] at hp'
  cases hp'
  refine ⟨_, _, _, hb, ?_, beBytes_length _ _, ?_⟩
  · rw [head_length, hr, hs, List.length_append]
  · have h1 := ofBe_lt (beBytes 2 ((padded env.lim.mtu (hybridHead env.random suites).length
      (hybridExts env.groups gr pub)).map fun e => 4 + e.2.length).sum)
    rw [beBytes_length] at h1
    refine Nat.lt_of_lt_of_le h1 ?_
    rw [flat_exts, padded_sum, exts_sum, head_length, hr]
    split <;> omega

end Verif.Props.Hybrid

import Verif.Model.Kx
import Verif.Props.Cipher
import Verif.Lemmas.Ends13
/-!
# C85: key exchange
-/
namespace Verif.Props.Kx
open Verif Verif.Kx
open Verif.Sign (Maker)

/-- Bytes of a public key: RFC 7748, section 5, and an uncompressed point of RFC 8446, section 4.2.8.2. -/
def pubLen : Group → Nat
  | .x25519 => 32
  | .p256 => 65
  | .p384 => 97

/-- Bytes of a shared secret: a coordinate. -/
def sharedLen : Group → Nat
  | .x25519 => 32
  | .p256 => 32
  | .p384 => 48

/-- How RFC 8446, section 4.2.8.2, has a key written: 32 bytes, or a point uncompressed. -/
def Plain (k : Group) (q : Bytes) : Prop := q.length = pubLen k ∧ (k ≠ .x25519 → q.head? = some 4)

/-- What is assumed of the primitives: lengths, that own public keys are points written plainly, that the order of the two
keys does not matter, and of aws-lc-rs that it does as RustCrypto with keys written plainly and gives no secret of X25519
that is zero. What it does with keys written otherwise is not assumed. -/
structure Fit (p : Prim) : Prop where
  pub : ∀ k s, Plain k (p.pub k s)
  x25519 : ∀ s q, (p.x25519 s q).length = 32
  dh : ∀ k s q, (p.dh k s q).length = sharedLen k
  point : ∀ k s, k ≠ .x25519 → ∃ q, p.decode k (p.pub k s) = some q
  commX : ∀ a b, p.x25519 a (p.pub .x25519 b) = p.x25519 b (p.pub .x25519 a)
  comm : ∀ k a b q r, k ≠ .x25519 → p.decode k (p.pub k a) = some q → p.decode k (p.pub k b) = some r →
    p.dh k a r = p.dh k b q
  agreeX : ∀ s q, q.length = 32 → p.agree .x25519 s q =
    if p.x25519 s q ≠ List.replicate 32 0 then some (p.x25519 s q) else none
  agree : ∀ k s q, k ≠ .x25519 → Plain k q → p.agree k s q = (p.decode k q).map (p.dh k s)
  agreeLen : ∀ k s q r, p.agree k s q = some r → r.length = sharedLen k
  agreeZero : ∀ s q, p.agree .x25519 s q ≠ some (List.replicate 32 0)

theorem all_zero {l : Bytes} (h : l.length = n) : l.all (· == 0) = true ↔ l = List.replicate n 0 := by
  rw [List.all_eq_true, List.eq_replicate_iff]
  simp [h]

/-- What RFC 7748, section 6.1, and RFC 8446, section 7.4, say the secret is: for X25519 the function of RFC 7748 unless zero,
for the others the coordinate of the product with a point. -/
def shared (p : Prim) (k : Group) (secret peer : Bytes) : Option Bytes :=
  match k with
  | .x25519 =>
    if p.x25519 secret peer ≠ List.replicate 32 0 then some (p.x25519 secret peer) else none
  | k => (p.decode k peer).map (p.dh k secret)

/-- **C85.** What `complete` of RustCrypto gives for any bytes of the peer: with X25519 none unless they are 32. -/
theorem rust_eq (hf : Fit p) (hk : ofNum g = some k) (n : Nat) (peer : Bytes) :
    complete p .rustCrypto n g peer =
      if k = .x25519 ∧ peer.length ≠ 32 then none else shared p k (p.secret n k) peer := by
  unfold complete
  rw [hk]
  cases k with
  | x25519 =>
    show completeRust p .x25519 _ _ = _
    unfold completeRust shared
    dsimp only
    by_cases hl : peer.length = 32
    · rw [if_pos hl, if_neg (c := Group.x25519 = Group.x25519 ∧ peer.length ≠ 32) (fun h => h.2 hl)]
      by_cases hz : p.x25519 (p.secret n .x25519) peer = List.replicate 32 0
      · rw [if_pos ((all_zero (hf.x25519 ..)).mpr hz), if_neg (fun h => h hz)]
      · rw [if_neg (fun h => hz ((all_zero (hf.x25519 ..)).mp h)), if_pos hz]
    · rw [if_neg hl, if_pos ⟨rfl, hl⟩]
  | p256 => exact (if_neg (fun h => nomatch h.1)).symm
  | p384 => exact (if_neg (fun h => nomatch h.1)).symm

/-- **C85.** What both back ends give for a key written plainly. -/
theorem complete_eq (hf : Fit p) (m : Maker) (hk : ofNum g = some k) (n : Nat) (hp : Plain k peer) :
    complete p m n g peer = shared p k (p.secret n k) peer := by
  cases m with
  | rustCrypto =>
    rw [rust_eq hf hk, if_neg]
    rintro ⟨rfl, h⟩
    exact h hp.1
  | awsLc =>
    unfold complete
    rw [hk]
    cases k with
    | x25519 => exact hf.agreeX _ _ hp.1
    | p256 => exact hf.agree _ _ _ (by decide) hp
    | p384 => exact hf.agree _ _ _ (by decide) hp

/-- `NamedGroup` of RFC 8446, section 4.2.7. -/
def number : Group → Nat
  | .x25519 => 0x1D
  | .p256 => 0x17
  | .p384 => 0x18

/-- **C85.** The curve used for a group number is the one RFC 8446 gives it. -/
theorem numbers (g : Nat) (k : Group) : ofNum g = some k ↔ g = number k := by
  constructor
  · intro h
    unfold ofNum at h
    split at h
    · cases h; assumption
    split at h
    · cases h; assumption
    split at h
    · cases h; assumption
    · cases h
  · rintro rfl
    cases k <;> rfl

/-- **C85.** Other groups than the three are refused. -/
theorem others_refused (hg : g ≠ 29 ∧ g ≠ 23 ∧ g ≠ 24) (p : Prim) (m : Maker) (n : Nat) (peer : Bytes) :
    start p n g = none ∧ complete p m n g peer = none := by
  have h : ofNum g = none := by unfold ofNum; rw [if_neg hg.1, if_neg hg.2.1, if_neg hg.2.2]
  unfold start complete
  rw [h]
  exact ⟨rfl, rfl⟩

/-- **C85.** Lengths of public keys and secrets. -/
theorem start_plain (hf : Fit p) {n g : Nat} {q : Bytes} (h : start p n g = some q) :
    ∃ k, ofNum g = some k ∧ Plain k q := by
  obtain ⟨k, hk, rfl⟩ := Option.map_eq_some_iff.mp h
  exact ⟨k, hk, hf.pub ..⟩

theorem shared_length (hf : Fit p) {m : Maker} {n g : Nat} {peer s : Bytes} (h : complete p m n g peer = some s) :
    ∃ k, ofNum g = some k ∧ s.length = sharedLen k := by
  cases hk : ofNum g with
  | none => unfold complete at h; rw [hk] at h; cases h
  | some k =>
    refine ⟨k, rfl, ?_⟩
    cases m with
    | awsLc =>
      unfold complete at h
      rw [hk] at h
      exact hf.agreeLen _ _ _ _ h
    | rustCrypto =>
      rw [rust_eq hf hk] at h
      split at h
      · cases h
      cases k with
      | x25519 =>
        unfold shared at h
        dsimp only at h
        split at h
        · cases h; exact hf.x25519 ..
        · cases h
      | p256 =>
        obtain ⟨q, _, rfl⟩ := Option.map_eq_some_iff.mp h
        exact hf.dh ..
      | p384 =>
        obtain ⟨q, _, rfl⟩ := Option.map_eq_some_iff.mp h
        exact hf.dh ..

/-- **C85.** RFC 7748, section 6.1, and RFC 8446, section 7.4.2: a secret of X25519 is never zero, whatever the peer sent. For
aws-lc-rs this is assumed, as the comment in the code does. -/
theorem not_zero (hf : Fit p) (m : Maker) (n : Nat) (peer : Bytes) :
    complete p m n 29 peer ≠ some (List.replicate 32 0) := by
  intro h
  cases m with
  | awsLc => exact hf.agreeZero _ _ h
  | rustCrypto =>
    rw [rust_eq hf (k := .x25519) rfl] at h
    split at h
    · cases h
    · unfold shared at h
      dsimp only at h
      split at h
      · rename_i hz
        exact hz (Option.some.inj h)
      · cases h

/-- **C85.** Two ends that got each other's public key, whatever their back ends, have the same secret, or, for X25519 only
and with a secret of zero, both none. -/
theorem agreed (hf : Fit p) (ma mb : Maker) {a b g : Nat} {qa qb : Bytes} (ha : start p a g = some qa)
    (hb : start p b g = some qb) :
    complete p ma a g qb = complete p mb b g qa ∧
      (complete p ma a g qb = none → g = 29 ∧ p.x25519 (p.secret a .x25519) qb = List.replicate 32 0) := by
  obtain ⟨k, hk, rfl⟩ := Option.map_eq_some_iff.mp ha
  obtain ⟨k', hk', rfl⟩ := Option.map_eq_some_iff.mp hb
  rw [hk] at hk'; cases hk'
  rw [complete_eq hf ma hk a (hf.pub ..), complete_eq hf mb hk b (hf.pub ..)]
  unfold shared
  have other : ∀ k, k ≠ .x25519 → (p.decode k (p.pub k (p.secret b k))).map (p.dh k (p.secret a k)) =
      (p.decode k (p.pub k (p.secret a k))).map (p.dh k (p.secret b k)) ∧
      (p.decode k (p.pub k (p.secret b k))).map (p.dh k (p.secret a k)) ≠ none := by
    intro k hx
    obtain ⟨q, hq⟩ := hf.point k (p.secret a k) hx
    obtain ⟨r, hr⟩ := hf.point k (p.secret b k) hx
    rw [hq, hr]
    exact ⟨congrArg some (hf.comm k _ _ _ _ hx hq hr), by simp⟩
  cases k with
  | x25519 =>
    have h29 : g = 29 := by
      unfold ofNum at hk
      split at hk
      · assumption
      · split at hk
        · cases hk
        · split at hk <;> cases hk
    dsimp only
    rw [hf.commX (p.secret a .x25519)]
    refine ⟨rfl, fun h => ⟨h29, ?_⟩⟩
    split at h
    · cases h
    · rename_i hn
      exact Classical.byContradiction fun hz => hn hz
  | p256 =>
    obtain ⟨h1, h2⟩ := other .p256 (by decide)
    exact ⟨h1, fun h => absurd h h2⟩
  | p384 =>
    obtain ⟨h1, h2⟩ := other .p384 (by decide)
    exact ⟨h1, fun h => absurd h h2⟩

/-- **C85.** The back ends accept the same of the keys written plainly and compute the same. -/
theorem makers_agree (hf : Fit p) (m m' : Maker) (hk : ofNum g = some k) (n : Nat) (hp : Plain k peer) :
    complete p m n g peer = complete p m' n g peer := by rw [complete_eq hf m hk n hp, complete_eq hf m' hk n hp]

/-- What other theorems assume of public keys: they fit the one byte for their length in DTLS 1.2 and the two in DTLS 1.3. -/
theorem start_fits (hf : Fit p) {n g : Nat} {q : Bytes} (h : start p n g = some q) : q.length < 256 := by
  obtain ⟨k, _, hq⟩ := start_plain hf h
  cases k <;> rw [hq.1] <;> decide

theorem share_small (hf : Fit p) (env : E13.PEnv) (m : Maker) :
    ∀ n g pub, (with13 env p m).kxStart n g = some pub → pub.length < 2 ^ 32 :=
  fun _ _ _ h => Nat.lt_trans (start_fits hf h) (by decide)

/-! ## Sessions -/

section
open E12 M

/-- **C85.** A DTLS 1.2 server goes on with the premaster secret of the exchange it began, which for X25519 is not zero. -/
theorem server12_secret (hf : Fit p) (env : PEnv) (m : Maker) (peer : Bytes) (s : Ses SSt) :
    wp (S12.clientKxEcdh (with12 env p m) peer) s
      (fun _ s' => ∃ n g pms, s.kx = some (n, g) ∧ complete p m n g peer = some pms ∧ s'.pms = some pms ∧
        (g = 29 → pms ≠ List.replicate 32 0)) (fun _ _ => True) := by
  unfold S12.clientKxEcdh
  simp only [bind_eq, pure_eq]
  rw [wp_bind, wp_get, wp_bind]
  refine wp_orFatal_of (fun k hk => ?_) trivial
  obtain ⟨n, g⟩ := k
  dsimp only
  rw [wp_bind, wp_modify, wp_bind]
  refine wp_orFatal_of (fun pms hp => ?_) trivial
  rw [wp_modify]
  exact ⟨n, g, pms, hk, hp, rfl, fun e => by subst e; exact fun hz => not_zero hf m n peer (hz ▸ hp)⟩

/-- **C85.** So does a client. -/
theorem client12_secret (hf : Fit p) (env : PEnv) (m : Maker) (g : Nat) (peer : Bytes) (s : Ses CSt) :
    wp (C12.processEcdh (with12 env p m) g peer) s
      (fun _ s' => ∃ n pms, complete p m n g peer = some pms ∧ s'.pms = some pms ∧
        (g = 29 → pms ≠ List.replicate 32 0)) (fun _ _ => True) := by
  unfold C12.processEcdh
  simp only [bind_eq, pure_eq]
  rw [wp_bind]
  refine wp_check_of (fun _ => ?_) trivial
  rw [wp_bind]
  refine wp_of (fun n s1 _ => ?_) (fun _ _ _ => trivial)
  rw [wp_bind]
  refine wp_orFatal_of (fun ours _ => ?_) trivial
  rw [wp_bind, wp_modify, wp_bind]
  refine wp_orFatal_of (fun pms hp => ?_) trivial
  rw [wp_modify]
  exact ⟨_, pms, hp, rfl, fun e => by subst e; exact fun hz => not_zero hf m _ peer (hz ▸ hp)⟩

end

section
open E13 M

/-- **C85.** A DTLS 1.3 server goes on with a shared secret that for X25519 is not zero. -/
theorem server13_secret (hf : Fit p) (env : PEnv) (m : Maker) (suite : Nat) (x : S13.ChExts) (share : Nat × Bytes)
    (s : Ses SSt) :
    wp (S13.acceptClientHello (with13 env p m) suite x share) s
      (fun _ s' => ∃ n sec, complete p m n share.1 share.2 = some sec ∧ s'.shared = some sec ∧
        (share.1 = 29 → sec ≠ List.replicate 32 0)) (fun _ _ => True) := by
  unfold S13.acceptClientHello
  simp only [bind_eq, pure_eq]
  rw [wp_bind]
  refine wp_check_of (fun _ => ?_) trivial
  rw [wp_bind, wp_drawTick, wp_bind]
  refine wp_orFatal_of (fun pub _ => ?_) trivial
  rw [wp_bind, wp_modify, wp_bind]
  refine wp_orFatal_of (fun sec hp => ?_) trivial
  rw [wp_bind, wp_modify, wp_bind, wp_setSuite, wp_bind, wp_onEng]
  refine wp_of (fun _ _ _ => ?_) (fun _ _ _ => trivial)
  exact ⟨_, sec, hp, rfl, fun e => fun hz => not_zero hf m _ share.2 (by rw [← hz, ← e]; exact hp)⟩

/-- **C85.** A DTLS 1.3 client accepts a ServerHello only if the exchange it began gives a secret, for X25519 not zero. -/
theorem client13_secret (hf : Fit p) (env : PEnv) (m : Maker) (h : ServerHello) (s : Ses CSt) :
    wp (C13.serverHello (with13 env p m) h) s
      (fun _ _ => ∃ exts n g peer sec, h.exts = some exts ∧ C13.serverShare (with13 env p m) exts = some (g, peer) ∧
        s.kx = some (n, g) ∧ complete p m n g peer = some sec ∧
        (g = 29 → sec ≠ List.replicate 32 0)) (fun _ _ => True) := by
  unfold C13.serverHello
  simp only [bind_eq, pure_eq]
  rw [wp_bind]
  refine wp_check_of (fun _ => ?_) trivial
  rw [wp_bind]
  refine wp_check_of (fun _ => ?_) trivial
  rw [wp_bind]
  refine wp_check_of (fun _ => ?_) trivial
  rw [wp_bind]
  refine wp_check_of (fun _ => ?_) trivial
  rw [wp_bind, wp_setSuite, wp_bind, wp_modify, wp_bind]
  refine wp_orFatal_of (fun exts he => ?_) trivial
  rw [wp_bind]
  refine wp_check_of (fun _ => ?_) trivial
  rw [wp_bind]
  refine wp_orFatal_of (fun gp hg => ?_) trivial
  obtain ⟨group, pub⟩ := gp
  dsimp only
  rw [wp_bind, wp_get, wp_bind, wp_modify, wp_bind]
  refine wp_orFatal_of (fun k hk => ?_) trivial
  obtain ⟨n, ours⟩ := k
  dsimp only
  rw [wp_bind]
  refine wp_check_of (fun hc => ?_) trivial
  obtain rfl : ours = group := by simpa using hc
  rw [wp_bind]
  refine wp_orFatal_of (fun sec hp => ?_) trivial
  exact wp_of (fun _ _ _ => ⟨exts, n, ours, pub, sec, he, hg, hk, hp, fun e => by
    subst e; exact fun hz => not_zero hf m n pub (hz ▸ hp)⟩) (fun _ _ _ => trivial)

end

/-! ## Instances -/

/-- Multiplication in bytes. Points are written with a 4 in front. -/
def toy : Prim where
  secret n _ := [UInt8.ofNat (2 * n + 1)]
  pub k s := (if k = .x25519 then s.headD 0 else 4) :: List.replicate (pubLen k - 1) (s.headD 0)
  x25519 s q := List.replicate 32 (s.headD 0 * q.headD 0)
  decode k q := if q.length = pubLen k ∧ q.headD 0 = 4 then some q else none
  dh k s q := List.replicate (sharedLen k) (s.headD 0 * (q.drop 1).headD 0)
  agree k s q :=
    if k = .x25519 then
      if q.length = 32 ∧ List.replicate 32 (s.headD 0 * q.headD 0) ≠ List.replicate 32 0
      then some (List.replicate 32 (s.headD 0 * q.headD 0)) else none
    else if q.length = pubLen k ∧ q.headD 0 = 4
      then some (List.replicate (sharedLen k) (s.headD 0 * (q.drop 1).headD 0)) else none

theorem toy_fit : Fit toy where
  pub k s := by cases k <;> simp [toy, pubLen, Plain]
  x25519 _ _ := List.length_replicate
  dh _ _ _ := List.length_replicate
  point k s hk := by cases k <;> simp [toy, pubLen] at hk ⊢
  commX a b := by
    show List.replicate 32 (a.headD 0 * b.headD 0) = List.replicate 32 (b.headD 0 * a.headD 0)
    rw [UInt8.mul_comm]
  comm k a b q r hk hq hr := by
    have e : ∀ {x y : Bytes}, toy.decode k x = some y → y = x := by
      intro x y h
      simp only [toy] at h
      split at h
      · cases h; rfl
      · cases h
    rw [e hq, e hr]
    cases k
    · exact absurd rfl hk
    all_goals
      simp only [toy, pubLen, List.drop_succ_cons, List.drop_zero]
      simp [List.replicate, UInt8.mul_comm]
  agreeX s q hq := by simp [toy, hq]
  agree k s q hk _ := by
    simp only [toy, if_neg hk]
    split <;> rfl
  agreeLen k s q r h := by
    simp only [toy] at h
    split at h
    · subst k
      split at h
      · cases h; rfl
      · cases h
    · split at h
      · cases h; exact List.length_replicate
      · cases h
  agreeZero s q h := by
    simp only [toy, if_pos] at h
    split at h
    · rename_i hz
      exact hz.2 (Option.some.inj h)
    · cases h

/-- A key of small order is refused by both, and so is one of another length. -/
example (m : Maker) : complete toy m 3 29 (List.replicate 32 0) = none ∧ complete toy m 3 29 [1] = none ∧
    complete toy m 3 23 (4 :: List.replicate 64 2) = some (List.replicate 32 14) ∧
    complete toy m 3 25 (List.replicate 32 1) = none := by cases m <;> decide

/-- Ends with different back ends and these key exchanges connect. -/
theorem completes :
    let d := Sigs.mixed (with12 MsgDemo.cert12 toy .awsLc) (with12 MsgDemo.cert12 toy .rustCrypto) 3
    let f := E13.Demo.rounds (Msg13.codec (with13 MsgDemo.full13 toy .rustCrypto) 150 [77, 78])
      (Msg13.codec (with13 MsgDemo.full13 toy .awsLc) 150 [77, 78]) 4
    d.client.st = .awaitApplicationData ∧ d.server.st = .awaitApplicationData ∧
    f.client.st = .awaitApplicationData ∧ f.server.st = .awaitApplicationData := by decide +kernel

/-- Ends that send a key of small order are refused, as client and as server: the other end does not go on. -/
theorem small_order_refused :
    let bad12 := { with12 MsgDemo.cert12 toy .awsLc with kxStart := fun _ _ => some (List.replicate 32 0) }
    let bad13 := Msg13.codec { with13 MsgDemo.full13 toy .awsLc with kxStart := fun _ _ => some (List.replicate 32 0) }
      150 [77, 78]
    let good12 := with12 MsgDemo.cert12 toy .rustCrypto
    let good13 := Msg13.codec (with13 MsgDemo.full13 toy .rustCrypto) 150 [77, 78]
    (Sigs.mixed bad12 good12 3).server.st = .awaitClientKeyExchange ∧
    (Sigs.mixed good12 bad12 3).client.st = .awaitServerKeyExchange ∧
    (E13.Demo.rounds bad13 good13 4).server.st = .awaitClientHello ∧
    (E13.Demo.rounds good13 bad13 4).client.st = .awaitServerHello := by decide +kernel

end Verif.Props.Kx

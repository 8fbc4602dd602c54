import Verif.Model.Cipher
import Verif.Props.Recv12
import Verif.Props.Pair12
import Verif.Props.Pair13
import Verif.Props.Returns
import Verif.Props.Schedule
import Verif.Props.NoPanic12
import Verif.Props.MsgDemo
import Verif.Props.Sigs
/-!
# C81: the ciphers of the back ends
-/
namespace Verif.Props.Cipher
open Verif Verif.Cipher
open Verif.Sign (Maker)

/-- Length of the tags of a cipher. -/
def tagLen : Kind → Nat
  | .aesGcm => 16
  | .chacha => 16
  | .ccm8 => 8

/-- What is assumed of the primitive: texts keep their length, tags have that of the cipher, and what it has locked it
unlocks. -/
structure Fit (p : Prim) : Prop where
  locked : ∀ k key n a d c t, p.lock k key n a d = some (c, t) → c.length = d.length ∧ t.length = tagLen k
  unlocked : ∀ k key n a c t d, p.unlock k key n a c t = some d → d.length = c.length
  opens : ∀ k key n a d c t, p.lock k key n a d = some (c, t) → p.unlock k key n a c t = some d

variable {p : Prim} {m : Maker} {k : Kind} {key n a : Bytes}

theorem write_take {d x : Bytes} (h : d.length ≤ x.length) : (d ++ x.drop d.length).length = x.length := by
  simp; omega

/-- **C81.** Of a buffer no longer than its slice each decryption gives exactly what the primitive unlocks of all but the
last bytes with the last bytes as tag; the plaintext is at the start, the slice behind the record is as it was. All else is
an error, not a panic. -/
theorem decrypt_eq (hf : Fit p) (m : Maker) (k : Kind) (key n a : Bytes) (t : Tmp) (ht : t.len ≤ t.data.length) :
    decrypt p m k key n a t =
      if t.len < tagLen k then .err
      else match p.unlock k key n a (t.data.take (t.len - tagLen k)) ((t.data.take t.len).drop (t.len - tagLen k)) with
        | none => .err
        | some d => .ok ⟨d ++ t.data.drop (t.len - tagLen k), t.len - tagLen k⟩ := by
  have hv : t.view = some (t.data.take t.len) := by simp [Tmp.view, ht]
  have hl : (t.data.take t.len).length = t.len := by simp; omega
  have ht' : ∀ j, (t.data.take t.len).take (t.len - j) = t.data.take (t.len - j) := by
    intro j; rw [List.take_take]; congr 1; omega
  have hd : ∀ {k j tag d}, p.unlock k key n a (t.data.take (t.len - j)) tag = some d → d.length = t.len - j := by
    intro k j tag d h
    rw [hf.unlocked _ _ _ _ _ _ _ h]; simp; omega
  have rust : ∀ k, tagLen k = 16 → decryptRust p k key n a t =
      if t.len < tagLen k then .err
      else match p.unlock k key n a (t.data.take (t.len - tagLen k)) ((t.data.take t.len).drop (t.len - tagLen k)) with
        | none => .err
        | some d => .ok ⟨d ++ t.data.drop (t.len - tagLen k), t.len - tagLen k⟩ := by
    intro k hk
    rw [hk]
    unfold decryptRust
    split
    · rfl
    · simp only [hv, ht']
      cases hu : p.unlock k key n a (t.data.take (t.len - 16)) ((t.data.take t.len).drop (t.len - 16)) with
      | none => rfl
      | some d => simp [Tmp.write, Tmp.shorten, hd hu]
  have aws : ∀ k, tagLen k = 16 → decryptAws p k key n a t =
      if t.len < tagLen k then .err
      else match p.unlock k key n a (t.data.take (t.len - tagLen k)) ((t.data.take t.len).drop (t.len - tagLen k)) with
        | none => .err
        | some d => .ok ⟨d ++ t.data.drop (t.len - tagLen k), t.len - tagLen k⟩ := by
    intro k hk
    rw [hk]
    unfold decryptAws
    split
    · rfl
    · simp only [hv, hl, ht']
      cases hu : p.unlock k key n a (t.data.take (t.len - 16)) ((t.data.take t.len).drop (t.len - 16)) with
      | none => rfl
      | some d => simp [Tmp.write, Tmp.truncate, hd hu]
  have ccm : decryptCcm p key n a t =
      if t.len < tagLen .ccm8 then .err
      else match p.unlock .ccm8 key n a (t.data.take (t.len - tagLen .ccm8))
          ((t.data.take t.len).drop (t.len - tagLen .ccm8)) with
        | none => .err
        | some d => .ok ⟨d ++ t.data.drop (t.len - tagLen .ccm8), t.len - tagLen .ccm8⟩ := by
    have hv' : (t.truncate (t.len - 8)).view = some (t.data.take (t.len - 8)) := by
      have : t.len - 8 ≤ t.data.length := by omega
      simp [Tmp.view, Tmp.truncate, this]
    show _ = if t.len < 8 then Res.err else match p.unlock .ccm8 key n a (t.data.take (t.len - 8))
          ((t.data.take t.len).drop (t.len - 8)) with
        | none => .err
        | some d => .ok ⟨d ++ t.data.drop (t.len - 8), t.len - 8⟩
    unfold decryptCcm
    split
    · rfl
    · simp only [hv, hv']
      cases hu : p.unlock .ccm8 key n a (t.data.take (t.len - 8)) ((t.data.take t.len).drop (t.len - 8)) with
      | none => rfl
      | some d => simp [Tmp.write, Tmp.truncate, hd hu]
  cases k
  · cases m
    · exact rust _ rfl
    · exact aws _ rfl
  · cases m
    · exact rust _ rfl
    · exact aws _ rfl
  · exact ccm

/-- No panic. -/
theorem decrypt_total (hf : Fit p) (t : Tmp) (ht : t.len ≤ t.data.length) : decrypt p m k key n a t ≠ .panic := by
  rw [decrypt_eq hf m k key n a t ht]
  split
  · nofun
  · split <;> nofun

/-- What a successful decryption leaves: the plaintext, by the length of the tag shorter, and the rest of the slice. -/
theorem decrypt_ok (hf : Fit p) {t t' : Tmp} (ht : t.len ≤ t.data.length) (h : decrypt p m k key n a t = .ok t') :
    t'.len + tagLen k = t.len ∧ t'.data.length = t.data.length ∧ t'.data.drop t.len = t.data.drop t.len ∧
    ∃ d, t'.view = some d ∧
      p.unlock k key n a (t.data.take t'.len) ((t.data.take t.len).drop t'.len) = some d := by
  rw [decrypt_eq hf m k key n a t ht] at h
  split at h
  · cases h
  · rename_i hl
    split at h
    · cases h
    · rename_i d hu
      cases h
      have hd : d.length = t.len - tagLen k := by
        rw [hf.unlocked _ _ _ _ _ _ _ hu]; simp; omega
      refine ⟨by simp only; omega, by simp [hd]; omega, ?_, d, ?_, hu⟩
      · rw [List.drop_append]
        simp only [hd, List.drop_drop]
        rw [List.drop_eq_nil_of_le (by omega), List.nil_append]
        congr 1
        omega
      · simp only [Tmp.view, List.length_append, List.length_drop, hd]
        rw [if_pos (by omega), List.take_append_of_le_length (by omega), List.take_of_length_le (by omega)]

/-- Both back ends open the same. -/
theorem makers_agree (hf : Fit p) (m m' : Maker) (t : Tmp) (ht : t.len ≤ t.data.length) :
    decrypt p m k key n a t = decrypt p m' k key n a t := by
  rw [decrypt_eq hf m k key n a t ht, decrypt_eq hf m' k key n a t ht]

/-- Encryption adds the tag of the cipher. -/
theorem encrypt_length (hf : Fit p) {d c : Bytes} (h : encrypt p k key n a d = some c) :
    c.length = d.length + tagLen k := by
  unfold encrypt at h
  split at h
  · rename_i c t hl
    cases h
    obtain ⟨h1, h2⟩ := hf.locked _ _ _ _ _ _ _ hl
    simp [h1, h2]
  · cases h

/-- What is encrypted with one back end is what the other one decrypts. -/
theorem opened_encrypt (hf : Fit p) (m : Maker) {d c : Bytes} (h : encrypt p k key n a d = some c) :
    opened p m k key n a c = some d := by
  have hlen := encrypt_length hf h
  unfold encrypt at h
  split at h
  · rename_i x t hl
    cases h
    obtain ⟨h1, h2⟩ := hf.locked _ _ _ _ _ _ _ hl
    have ho := hf.opens _ _ _ _ _ _ _ hl
    have e := decrypt_eq hf m k key n a (.new (x ++ t)) (Nat.le_refl _)
    simp only [Tmp.new, List.take_length] at e
    rw [if_neg (by omega)] at e
    have hx : (x ++ t).length - tagLen k = x.length := by simp [h2]
    simp only [hx, List.take_left, List.drop_left, ho] at e
    simp only [opened, Tmp.new, e, Tmp.view]
    rw [if_pos (by simp [h1]), List.take_append_of_le_length (by omega), List.take_of_length_le (by omega)]
  · cases h

theorem opened_short (hf : Fit p) {c d : Bytes} (h : opened p m k key n a c = some d) :
    d.length + tagLen k = c.length := by
  unfold opened at h
  split at h
  · rename_i t ht
    obtain ⟨h1, h2, _, d', h3, h4⟩ := decrypt_ok hf (t := .new c) (Nat.le_refl _) ht
    rw [h] at h3
    cases h3
    have := hf.unlocked _ _ _ _ _ _ _ h4
    simp only [Tmp.new, List.length_take] at this h1 h2
    omega
  · cases h

/-! ## The tables -/

/-- DTLS 1.2: fixed IV and explicit nonce make a nonce of 12 bytes, the tag is that of the cipher, and the cipher takes
keys of the length cut from the key block. -/
theorem suites12 {c : Nat} {x : Suite12} (h : suite12 c = some x) :
    x.ivLen + x.explicit = 12 ∧ (x.explicit = 0 ∨ x.explicit = 8) ∧ x.tag = tagLen x.kind ∧ x.macLen = 0 ∧
    ∀ key : Bytes, key.length = x.keyLen → creates x.kind key = true := by
  unfold suite12 at h
  repeat' split at h
  all_goals cases h
  all_goals exact ⟨rfl, by decide, rfl, rfl, fun key hk => by simp_all [creates]⟩

/-- DTLS 1.3. -/
theorem suites13 {c : Nat} {x : Suite13} (h : suite13 c = some x) :
    x.ivLen = 12 ∧ x.tag = tagLen x.kind ∧ x.tag = 16 ∧
    ∀ key : Bytes, key.length = x.keyLen → creates x.kind key = true := by
  unfold suite13 at h
  repeat' split at h
  all_goals cases h
  all_goals exact ⟨rfl, rfl, rfl, fun key hk => by simp_all [creates]⟩

/-! ## What the sessions assume -/

section
open Verif.E12

/-- The hypothesis of the theorems on DTLS 1.2 sessions about opening. -/
theorem dec_short (hf : Fit p) (env : PEnv) : DecShort (Cipher.with12 env p m k).toEnv := by
  intro key n a c d h
  have := opened_short hf h
  omega

/-- What is assumed of the HMAC of the hashes: outputs of the length of the hash. -/
def Macs (base : Nat → Schedule.Suite) : Prop :=
  ∀ n, 0 < (base n).hashLen ∧ ∀ k m, ((base n).hmac k m).length = (base n).hashLen

theorem sound12 {base : Nat → Schedule.Suite} (hb : Macs base) {c n : Nat} {x : Suite12} (h : suite12 c = some x) :
    Props.Schedule.Sound12 (schedule12 (base n) x) := by
  obtain ⟨h1, _, _, _, h5⟩ := suites12 h
  exact ⟨(hb n).1, (hb n).2, show x.ivLen ≤ 12 by omega, h5⟩

/-- That about the suites, with the key schedule of the code. -/
theorem suite_sane (env : PEnv) {base : Nat → Schedule.Suite} (hb : Macs base) :
    SuiteSane (Cipher.full12 env p m k base).toEnv where
  params c e n h := by
    obtain ⟨x, hx, g⟩ := Option.map_eq_some_iff.mp (show (suite12 c).map _ = some (e, n) from h)
    cases g
    exact ⟨(suites12 hx).2.1, by omega⟩
  iv c e n ms cr sr ks h hk := by
    obtain ⟨x, hx, g⟩ := Option.map_eq_some_iff.mp (show (suite12 c).map _ = some (e, n) from h)
    cases g
    obtain ⟨h1, _⟩ := suites12 hx
    obtain ⟨y, hy, hk⟩ := Option.bind_eq_some_iff.mp (show (suite12 c).bind _ = some ks from hk)
    rw [hx] at hy; cases hy
    have hr : cr.length = 32 ∧ sr.length = 32 := by
      unfold Schedule.deriveKeys at hk
      split at hk
      · rename_i g; exact ⟨g.1, g.2.1⟩
      · cases hk
    obtain ⟨k', _, _, g1, _, _, _, _, _, g2, g3⟩ := Props.Schedule.key_block (sound12 hb (n := c) hx) ms cr sr hr.1 hr.2
    rw [hk] at g1; cases g1
    have e1 : ks.clientIv.length = x.ivLen := g2
    have e2 : ks.serverIv.length = x.ivLen := g3
    rw [e1, e2]
    exact ⟨h1, h1⟩

/-- All that the absence of panics in DTLS 1.2 sessions (C22) assumes but for the search in a queue, the random numbers
and that only suites of the provider are configured. -/
theorem session_sound (hf : Fit p) {base : Nat → Schedule.Suite} (hb : Macs base) (env : PEnv)
    (ha : ∀ c ∈ env.allowed, suite12 c ≠ none)
    (hg : ∀ c ∈ env.allowed, Config.isPsk c = false → env.suiteSig c ≠ none)
    (hs : SearchOk env.search) (hr : ∀ t, (env.rand t 8).length = 8) : Sound12 (Cipher.full12 env p m k base) where
  dec := dec_short hf env
  sane := suite_sane env hb
  search := hs
  rand := hr
  known c hc h := ha c hc (Option.map_eq_none_iff.mp h)
  sig := hg

/-- What is assumed of two sides in C03. -/
theorem matched12 (hf : Fit p) (ea eb : PEnv) (ma mb : Maker) (hr : ∀ i n, (ea.rand i n).length = n) :
    Pair12.Matched (Cipher.with12 ea p ma k).toEnv (Cipher.with12 eb p mb k).toEnv (tagLen k) where
  opens _ _ _ _ _ h := opened_encrypt hf mb h
  size _ _ _ _ _ h := encrypt_length hf h
  rand := hr

end

section
open Verif.E13

theorem matched13 (hf : Fit p) (hk : k ≠ .ccm8) (ea eb : PEnv) (ma mb : Maker) (hm : ea.snMask = eb.snMask) :
    Pair13.Matched (Cipher.with13 ea p ma k).toEnv (Cipher.with13 eb p mb k).toEnv 16 where
  opens _ _ _ _ _ h := opened_encrypt hf mb h
  sizes := {
    tag := fun suite t h => by
      obtain ⟨x, hx, rfl⟩ := Option.map_eq_some_iff.mp (show (suite13 suite).map (·.tag) = some t from h)
      exact (suites13 hx).2.2.1
    enc := fun _ _ _ _ _ h => by
      have e : tagLen k = 16 := by cases k <;> first | rfl | exact absurd rfl hk
      rw [← e]
      exact encrypt_length hf h }
  tag _ _ h := h
  mask := hm

theorem small13 (env : PEnv) : Returns.Small13 (Cipher.with13 env p m k) := by
  intro suite t h
  obtain ⟨x, hx, rfl⟩ := Option.map_eq_some_iff.mp (show (suite13 suite).map (·.tag) = some t from h)
  rw [(suites13 hx).2.2.1]
  exact Nat.le_refl _

end

/-! ## Cases -/

/-- A primitive that locks by adding a checksum of everything. -/
def toy : Prim :=
  { lock := fun k key n a d => some (d, List.replicate (tagLen k) (E12.Demo.sum (key ++ n ++ a ++ d)))
    unlock := fun k key n a c t => if t = List.replicate (tagLen k) (E12.Demo.sum (key ++ n ++ a ++ c)) then some c else none }

theorem toy_fit : Fit toy where
  locked k key n a d c t h := by cases h; simp
  unlocked k key n a c t d h := by
    simp only [toy] at h
    split at h
    · cases h; rfl
    · cases h
  opens k key n a d c t h := by cases h; simp [toy]

theorem toy_macs : Macs fun _ => Props.Schedule.toy := fun _ => ⟨show 0 < 32 by decide, fun _ _ => List.length_replicate⟩

/-- Encryption with one back end, decryption with the other, in a slice that goes on behind the record. -/
example :
    encrypt toy .ccm8 [1] [2] [3] [4, 5] = some [4, 5, 22, 22, 22, 22, 22, 22, 22, 22] ∧
    decrypt toy .awsLc .ccm8 [1] [2] [3] ⟨[4, 5, 22, 22, 22, 22, 22, 22, 22, 22, 77], 10⟩ =
      .ok ⟨[4, 5, 22, 22, 22, 22, 22, 22, 22, 22, 77], 2⟩ ∧
    decrypt toy .awsLc .ccm8 [1] [2] [3] ⟨[4, 5, 22, 22, 22, 22, 22, 22, 22, 21], 10⟩ = .err ∧
    decrypt toy .rustCrypto .ccm8 [1] [2] [3] ⟨[4, 5, 22], 3⟩ = .err := by decide

/-- DTLS 1.2 environment of a back end. -/
def env12 (m : Maker) : E12.PEnv := Cipher.full12 MsgDemo.cert12 toy m .aesGcm fun _ => Props.Schedule.toy

def env13 (m : Maker) : E13.PEnv := Cipher.with13 MsgDemo.full13 toy m .aesGcm

example (m : Maker) : E12.Sound12 (env12 m) :=
  session_sound toy_fit toy_macs MsgDemo.cert12 (by decide) (by decide) Recv12.search_ok_demo fun t => by
    show (beBytes 8 t).length = 8
    simp [beBytes]

/-- Ends with different back ends connect. -/
theorem completes :
    let d := Sigs.mixed (env12 .awsLc) (env12 .rustCrypto) 3
    let f := E13.Demo.rounds (env13 .rustCrypto) (env13 .awsLc) 4
    d.client.st = .awaitApplicationData ∧ d.server.st = .awaitApplicationData ∧
    f.client.st = .awaitApplicationData ∧ f.server.st = .awaitApplicationData := by decide +kernel

end Verif.Props.Cipher

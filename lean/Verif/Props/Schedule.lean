import Verif.Model.Schedule
import Verif.Props.Kdf
import Verif.Props.Agree12
import Verif.Props.Agree13
/-!
# C71, C72: the key schedules against the RFCs
-/
namespace Verif.Props.Schedule
open Verif Verif.Kdf Verif.Schedule
open Verif.Props.Kdf (tConcat tConcat_length pHash pHash_length opaque8)

/-- HMAC and hash give as many bytes as the hash algorithm has, 32 or 48; the lengths of keys are small. -/
structure Sound (c : Suite) : Prop where
  len : c.hashLen = 32 ∨ c.hashLen = 48
  hmac : ∀ k m, (c.hmac k m).length = c.hashLen
  hash : ∀ m, (c.hash m).length = c.hashLen
  key : c.keyLen ≤ 255
  iv : c.ivLen = 12
  creates : ∀ k, k.length = c.keyLen → c.creates k = true

/-- Bytes of SRTP master key and master salt of a protection profile: RFC 5764, section 4.1.2, and RFC 7714, section 12. -/
def srtpParams (profile : Nat) : Option (Nat × Nat) :=
  [(1, 16, 14), (7, 16, 12), (8, 32, 12)].lookup profile

/-- RFC 5764, section 4.2: a key and a salt for each side. -/
def srtpLen (profile : Nat) : Option Nat := (srtpParams profile).map fun x => 2 * (x.1 + x.2)

/-- **C71, C72.** The code's table of lengths. -/
theorem keying_len (profile : Nat) : keyingLen profile = srtpLen profile := by
  unfold keyingLen srtpLen srtpParams
  split <;> first | rfl | skip
  rename_i h1 h7 h8
  have e1 : (profile == 1) = false := beq_eq_false_iff_ne.mpr h1
  have e7 : (profile == 7) = false := beq_eq_false_iff_ne.mpr h7
  have e8 : (profile == 8) = false := beq_eq_false_iff_ne.mpr h8
  simp only [List.lookup, e1, e7, e8, Option.map_none]

/-! ## DTLS 1.3: RFC 8446, sections 7.1 to 7.5, with the label prefix of RFC 9147, section 5.9 -/

/-- `HkdfLabel`. -/
def info (label context : Bytes) (len : Nat) : Bytes :=
  beBytes 2 len ++ opaque8 (lit "dtls13" ++ label) ++ opaque8 context

/-- `HKDF-Expand-Label(Secret, Label, Context, Length)`: the first bytes of `T(1) | T(2) | ...` of RFC 5869. -/
def ExpandLabel (c : Suite) (secret label context : Bytes) (len : Nat) : Bytes :=
  (tConcat c.hmac secret (info label context len) ((len + c.hashLen - 1) / c.hashLen)).take len

/-- `Derive-Secret(Secret, Label, Messages)`. -/
def DeriveSecret (c : Suite) (secret label messages : Bytes) : Bytes :=
  ExpandLabel c secret label (c.hash messages) c.hashLen

/-- The column of `HKDF-Extract` in the picture of section 7.1, without a pre-shared key. -/
def Zero (c : Suite) : Bytes := List.replicate c.hashLen 0
def Early (c : Suite) : Bytes := c.hmac (Zero c) (Zero c)
def Handshake (c : Suite) (ecdhe : Bytes) : Bytes := c.hmac (DeriveSecret c (Early c) (lit "derived") []) ecdhe
def Master (c : Suite) (handshake : Bytes) : Bytes := c.hmac (DeriveSecret c handshake (lit "derived") []) (Zero c)

/-- `TLS-Exporter(label, context_value, key_length)`, section 7.5. -/
def Exporter (c : Suite) (secret label context : Bytes) (len : Nat) : Bytes :=
  ExpandLabel c (DeriveSecret c secret label []) (lit "exporter") (c.hash context) len

theorem expand_eq {c : Suite} (h : Sound c) {secret label context : Bytes} {len : Nat} (hl : label.length ≤ 249)
    (hc : context.length ≤ 255) (hn : len ≤ 255) :
    expandLabel c secret label context len = some (ExpandLabel c secret label context len) := by
  have hH : 0 < c.hashLen := by rcases h.len with g | g <;> omega
  have hp : dtls13Prefix = lit "dtls13" := by decide
  have hq : (lit "dtls13").length = 6 := by decide
  unfold expandLabel hkdfExpandLabelDtls13
  rw [Kdf.hkdf_label_eq_rfc8446, hp, if_pos ⟨by rw [List.length_append, hq]; omega, by omega, by omega⟩]
  show hkdfExpand _ _ _ _ _ = _
  rw [Kdf.hkdf_eq_rfc5869 _ _ hH h.hmac, if_pos (by
    have := Nat.le_mul_of_pos_right 255 hH
    omega)]
  rfl

theorem expand_length {c : Suite} (h : Sound c) (secret label context : Bytes) (len : Nat) :
    (ExpandLabel c secret label context len).length = len := by
  have hH : 0 < c.hashLen := by rcases h.len with g | g <;> omega
  unfold ExpandLabel
  rw [List.length_take, tConcat_length _ _ h.hmac]
  apply Nat.min_eq_left
  have hdm := Nat.div_add_mod (len + c.hashLen - 1) c.hashLen
  have hm := Nat.mod_lt (len + c.hashLen - 1) hH
  rw [Nat.mul_comm]
  omega

theorem extract_eq {c : Suite} {salt ikm : Bytes} (hs : 0 < salt.length) : hkdfExtract c.hmac c.hashLen salt ikm = c.hmac salt ikm := by
  cases salt with
  | nil => simp at hs
  | cons => rfl

theorem zeros_eq {c : Suite} (h : Sound c) : zeros c = Zero c := by
  unfold zeros Zero
  rw [List.take_replicate]
  rcases h.len with g | g <;> rw [g] <;> rfl

section
variable {c : Suite} (h : Sound c)
include h

theorem hashLen_pos : 0 < c.hashLen := by rcases h.len with g | g <;> omega
theorem hashLen_le : c.hashLen ≤ 255 := by rcases h.len with g | g <;> omega
theorem hash_le (m : Bytes) : (c.hash m).length ≤ 255 := by rw [h.hash]; exact hashLen_le h

theorem derive_eq {secret label : Bytes} (m : Bytes) (hl : label.length ≤ 249) :
    expandLabel c secret label (c.hash m) c.hashLen = some (DeriveSecret c secret label m) :=
  expand_eq h hl (hash_le h m) (hashLen_le h)

theorem derive_length (secret label m : Bytes) : 0 < (DeriveSecret c secret label m).length := by
  unfold DeriveSecret; rw [expand_length h]; exact hashLen_pos h

theorem early_eq : earlySecret c = Early c := by
  unfold earlySecret
  rw [zeros_eq h, extract_eq (by unfold Zero; rw [List.length_replicate]; exact hashLen_pos h)]
  rfl

/-- **C71.** The handshake secret and the two handshake traffic secrets, over the messages up to ServerHello. -/
theorem handshake_secrets (ecdhe messages : Bytes) :
    deriveHs c ecdhe messages = some (
      DeriveSecret c (Handshake c ecdhe) (lit "c hs traffic") messages,
      DeriveSecret c (Handshake c ecdhe) (lit "s hs traffic") messages, Handshake c ecdhe) := by
  unfold deriveHs
  rw [early_eq h, derive_eq h [] (by decide)]
  simp only [Option.bind_eq_bind, Option.bind_some]
  rw [extract_eq (derive_length h ..), derive_eq h messages (by decide), derive_eq h messages (by decide)]
  rfl

/-- **C71.** The application traffic secrets and the exporter secret, over the messages up to the server's Finished. -/
theorem application_secrets (handshake messages : Bytes) :
    deriveApp c handshake messages = some (
      DeriveSecret c (Master c handshake) (lit "c ap traffic") messages,
      DeriveSecret c (Master c handshake) (lit "s ap traffic") messages,
      DeriveSecret c (Master c handshake) (lit "exp master") messages) := by
  unfold deriveApp
  rw [derive_eq h [] (by decide)]
  simp only [Option.bind_eq_bind, Option.bind_some]
  rw [extract_eq (derive_length h ..), zeros_eq h, derive_eq h messages (by decide), derive_eq h messages (by decide),
    derive_eq h messages (by decide)]
  rfl

/-- **C71.** Section 7.2. -/
theorem next_secret (secret : Bytes) :
    nextSecret c secret = some (ExpandLabel c secret (lit "traffic upd") [] c.hashLen) :=
  expand_eq h (by decide) (by decide) (hashLen_le h)

/-- **C71.** Section 7.3, and RFC 9147, section 4.2.3, for `sn`. -/
theorem epoch_keys (secret : Bytes) :
    epochKeys c secret = some {
      key := ExpandLabel c secret (lit "key") [] c.keyLen
      iv := ExpandLabel c secret (lit "iv") [] 12
      sn := ExpandLabel c secret (lit "sn") [] c.keyLen
      secret := secret } := by
  unfold epochKeys
  rw [h.iv, expand_eq h (by decide) (by decide) h.key, expand_eq h (by decide) (by decide) (by decide),
    expand_eq h (by decide) (by decide) h.key]
  simp only [Option.bind_eq_bind, Option.bind_some]
  rw [if_pos]
  rw [h.creates _ (expand_length h ..), expand_length h]
  rfl

/-- **C71.** Section 4.4.4. -/
theorem verify_data (secret messages : Bytes) :
    verifyData c secret messages =
      some (c.hmac (ExpandLabel c secret (lit "finished") [] c.hashLen) (c.hash messages)) := by
  unfold verifyData
  rw [expand_eq h (by decide) (by decide) (hashLen_le h)]
  simp only [Option.bind_eq_bind, Option.bind_some]
  rw [extract_eq (by rw [expand_length h]; exact hashLen_pos h)]

/-- **C71.** RFC 5764, section 4.2, with the exporter of RFC 8446: the two keys and salts of the profile. -/
theorem srtp_keys (profile : Nat) (exporter : Bytes) :
    srtpKeys c profile exporter = (srtpLen profile).map fun n =>
      Exporter c exporter (lit "EXTRACTOR-dtls_srtp") [] n := by
  rw [← keying_len]
  unfold srtpKeys
  cases hk : keyingLen profile with
  | none => rfl
  | some n =>
    have hn : n ≤ 255 := by
      unfold keyingLen at hk
      split at hk <;> first | cases hk <;> decide | cases hk
    simp only [Option.bind_eq_bind, Option.bind_some, Option.map_some]
    rw [derive_eq h [] (by decide)]
    simp only [Option.bind_some]
    rw [expand_eq h (by decide) (hash_le h []) hn]
    simp only [Option.bind_some]
    rw [List.take_of_length_le (by rw [expand_length h]; exact Nat.le_refl n)]
    rfl

end

/-! ### No two derivations from one secret ask the same -/

theorem info_ne {l l' k k' : Bytes} {n n' : Nat} (hl : l.length ≤ 249) (hl' : l'.length ≤ 249) (hk : k.length ≤ 255)
    (hk' : k'.length ≤ 255) (hn : n ≤ 255) (hn' : n' ≤ 255) (h : l ≠ l') : info l k n ≠ info l' k' n' := by
  intro e
  have hq : (lit "dtls13").length = 6 := by decide
  refine h (Kdf.hkdf_label_injective (lit "dtls13") l l' k k' n n' (info l k n) ?_ ?_).2.1
  · rw [Kdf.hkdf_label_eq_rfc8446, if_pos ⟨by rw [List.length_append, hq]; omega, by omega, by omega⟩]; rfl
  · rw [Kdf.hkdf_label_eq_rfc8446, if_pos ⟨by rw [List.length_append, hq]; omega, by omega, by omega⟩, e]; rfl

/-- **C71.** What is expanded from the handshake secret, from the master secret, and from a traffic secret. -/
def fromHandshake (c : Suite) (m : Bytes) : List Bytes :=
  [info (lit "derived") (c.hash []) c.hashLen, info (lit "c hs traffic") (c.hash m) c.hashLen,
   info (lit "s hs traffic") (c.hash m) c.hashLen]
def fromMaster (c : Suite) (m : Bytes) : List Bytes :=
  [info (lit "exp master") (c.hash m) c.hashLen, info (lit "c ap traffic") (c.hash m) c.hashLen,
   info (lit "s ap traffic") (c.hash m) c.hashLen]
def fromTraffic (c : Suite) : List Bytes :=
  [info (lit "key") [] c.keyLen, info (lit "iv") [] 12, info (lit "sn") [] c.keyLen,
   info (lit "finished") [] c.hashLen, info (lit "traffic upd") [] c.hashLen]

/-- **C71.** They are pairwise different, whatever the transcript and the hash. -/
theorem apart {c : Suite} (h : Sound c) (m : Bytes) :
    (fromHandshake c m).Nodup ∧ (fromMaster c m).Nodup ∧ (fromTraffic c).Nodup := by
  have h1 := hashLen_le h
  have h2 := hash_le h m
  have h3 := hash_le h []
  have h4 := h.key
  have h0 : ([] : Bytes).length ≤ 255 := by decide
  have h5 : 12 ≤ 255 := by decide
  refine ⟨?_, ?_, ?_⟩ <;>
    simp only [fromHandshake, fromMaster, fromTraffic, List.nodup_cons, List.mem_cons, List.not_mem_nil, not_or,
      or_false, not_false_eq_true, List.nodup_nil, and_true]
  · refine ⟨⟨?_, ?_⟩, ?_⟩ <;>
      exact info_ne (by decide) (by decide) (by assumption) (by assumption) (by assumption) (by assumption) (by decide)
  · refine ⟨⟨?_, ?_⟩, ?_⟩ <;>
      exact info_ne (by decide) (by decide) (by assumption) (by assumption) (by assumption) (by assumption) (by decide)
  · refine ⟨⟨?_, ?_, ?_, ?_⟩, ⟨?_, ?_, ?_⟩, ⟨?_, ?_⟩, ?_⟩ <;>
      exact info_ne (by decide) (by decide) (by assumption) (by assumption) (by assumption) (by assumption) (by decide)

/-! ### Sessions -/

section
open Verif.E13 Verif.Props.Agree13
open Verif.E12 (outputs Call Event)

theorem exported {suites : Nat → Suite} (hs : ∀ n, Sound (suites n)) {env : E13.PEnv} {St : Type} {s : Ses St} {t km : Bytes}
    {p : Nat} (h1 : KmOf (fill13 suites env) s km p) (h2 : Keyed (fill13 suites env) s t) :
    ∃ cs hs n, s.eng.suite = some cs ∧ s.hsSecret = some hs ∧ srtpLen p = some n ∧ km.length = n ∧
      km = Exporter (suites cs) (DeriveSecret (suites cs) (Master (suites cs) hs) (lit "exp master") t)
        (lit "EXTRACTOR-dtls_srtp") [] n := by
  obtain ⟨cs, ex, a1, _, a3, a4⟩ := h1
  obtain ⟨cs', x, c, sv, ex', b1, b2, b3, b4⟩ := h2
  obtain rfl : cs = cs' := Option.some.inj (a1.symm.trans b1)
  obtain rfl : ex = ex' := Option.some.inj (a3.symm.trans b4)
  have e1 : deriveApp (suites cs) x t = some (c, sv, ex) := b3
  have e2 : srtpKeys (suites cs) p ex = some km := a4
  rw [application_secrets (hs cs)] at e1
  rw [srtp_keys (hs cs)] at e2
  obtain ⟨n, hn, hk⟩ := Option.map_eq_some_iff.mp e2
  have e3 : DeriveSecret (suites cs) (Master (suites cs) x) (lit "exp master") t = ex :=
    (Prod.mk.inj (Prod.mk.inj (Option.some.inj e1)).2).2
  subst hk
  refine ⟨cs, x, n, b1, b2, hn, expand_length (hs cs) .., ?_⟩
  rw [e3]

theorem told {os : List Output} {St : Type} {s : Ses St} {km : Bytes} {p : Nat} {env : E13.PEnv} (h : .keyingMaterial km p ∈ os)
    (ha : story os s = [] ∨ Announced env s (story os s)) : KmOf env s km p := by
  have hm : (.keyingMaterial km p : Event) ∈ story os s :=
    List.mem_append_left _ (List.mem_filterMap.mpr ⟨_, h, rfl⟩)
  rcases ha with g | ⟨g, _⟩ | ⟨km', p', g, hk⟩
  · rw [g] at hm; cases hm
  · rw [g] at hm; simp at hm
  · rw [g] at hm
    simp only [List.mem_cons, reduceCtorEq, Verif.E12.Event.keyingMaterial.injEq, List.not_mem_nil, or_false, false_or] at hm
    obtain ⟨rfl, rfl⟩ := hm
    exact hk

/-- **C71, client.** Keying material handed to the application is the RFC's exporter over the transcript up to the server's
Finished, as long as the profile says. -/
theorem client_exports {suites : Nat → Suite} (hs : ∀ n, Sound (suites n)) {env : E13.PEnv} {cfg : Cfg} {s0 : Ses CSt}
    (h : Begins (fill13 suites env) cfg s0) (hr : ∀ n, (env.rand n 32).length = 32) (cs : List Call) (km : Bytes) (p : Nat)
    (hk : .keyingMaterial km p ∈ outputs (run C13.role (fill13 suites env) s0 cs).1) :
    let s := (run C13.role (fill13 suites env) s0 cs).2
    ∃ cs x n ms body, s.eng.suite = some cs ∧ s.hsSecret = some x ∧ srtpLen p = some n ∧ km.length = n ∧
      flat (ms ++ [⟨20, body⟩]) <+: s.eng.transcript ∧
      km = Exporter (suites cs)
        (DeriveSecret (suites cs) (Master (suites cs) x) (lit "exp master") (flat (ms ++ [⟨20, body⟩])))
        (lit "EXTRACTOR-dtls_srtp") [] n := by
  intro s
  have a := client_keying h hr cs
  have hkm := told hk (a.imp_right And.left)
  rcases a with a | ⟨_, ms, body, k1, k2⟩
  · have hm : (.keyingMaterial km p : Event) ∈ story (outputs (run C13.role (fill13 suites env) s0 cs).1) s :=
      List.mem_append_left _ (List.mem_filterMap.mpr ⟨_, hk, rfl⟩)
    rw [a] at hm; cases hm
  · obtain ⟨cs', x, n, b1, b2, b3, b4, b5⟩ := exported hs hkm k1
    exact ⟨cs', x, n, ms, body, b1, b2, b3, b4, k2, b5⟩

/-- **C71, server.** -/
theorem server_exports {suites : Nat → Suite} (hs : ∀ n, Sound (suites n)) {env : E13.PEnv} (cfg : Cfg) (now : Nat)
    (auto : Bool) (hr : ∀ n, (env.rand n 32).length = 32) (cs : List Call) (km : Bytes) (p : Nat)
    (hk : .keyingMaterial km p ∈
      outputs (run S13.role (fill13 suites env) (S13.start (fill13 suites env) cfg now auto) cs).1) :
    let s := (run S13.role (fill13 suites env) (S13.start (fill13 suites env) cfg now auto) cs).2
    ∃ cs x n ms body, s.eng.suite = some cs ∧ s.hsSecret = some x ∧ srtpLen p = some n ∧ km.length = n ∧
      flat (ms ++ [⟨20, body⟩]) <+: s.eng.transcript ∧
      km = Exporter (suites cs)
        (DeriveSecret (suites cs) (Master (suites cs) x) (lit "exp master") (flat (ms ++ [⟨20, body⟩])))
        (lit "EXTRACTOR-dtls_srtp") [] n := by
  intro s
  have a := server_keying (env := fill13 suites env) cfg now auto hr cs
  have hkm := told hk (a.imp_right And.left)
  rcases a with a | ⟨_, ms, body, k1, k2⟩
  · have hm : (.keyingMaterial km p : Event) ∈
        story (outputs (run S13.role (fill13 suites env) (S13.start (fill13 suites env) cfg now auto) cs).1) s :=
      List.mem_append_left _ (List.mem_filterMap.mpr ⟨_, hk, rfl⟩)
    rw [a] at hm; cases hm
  · obtain ⟨cs', x, n, b1, b2, b3, b4, b5⟩ := exported hs hkm k1
    exact ⟨cs', x, n, ms, body, b1, b2, b3, b4, k2, b5⟩

end

/-! ## DTLS 1.2: RFC 5246, sections 5, 6.3, 7.4.9 and 8.1, RFC 7627, RFC 5705 -/

/-- `PRF(secret, label, seed)`, the first `n` bytes. -/
def Prf (c : Suite) (secret label seed : Bytes) (n : Nat) : Bytes := (pHash c.hmac secret (label ++ seed) n).take n

/-- As `Sound`, for the lengths of DTLS 1.2. -/
structure Sound12 (c : Suite) : Prop where
  len : 0 < c.hashLen
  hmac : ∀ k m, (c.hmac k m).length = c.hashLen
  iv : c.ivLen ≤ 12
  creates : ∀ k, k.length = c.keyLen → c.creates k = true

theorem prf_eq {c : Suite} (h : Sound12 c) (secret label seed : Bytes) (n : Nat) :
    prfTls12 c.hmac secret label seed n = Prf c secret label seed n := Kdf.prf_eq_rfc5246 _ _ h.len h.hmac ..

theorem prf_len {c : Suite} (h : Sound12 c) (secret label seed : Bytes) (n : Nat) :
    (Prf c secret label seed n).length = n := by
  rw [← prf_eq h, Kdf.prf_length _ _ h.len h.hmac]

/-- **C72.** The extended master secret (RFC 7627, section 4), 48 bytes. -/
theorem master_secret {c : Suite} (h : Sound12 c) (pms messages : Bytes) :
    ems c pms messages = Prf c pms (lit "extended master secret") (c.hash messages) 48 ∧
      (ems c pms messages).length = 48 := by
  have e := prf_eq h pms (lit "extended master secret") (c.hash messages) 48
  exact ⟨e, (congrArg List.length e).trans (prf_len h ..)⟩

/-- **C72.** The key block is cut into the six parts of section 6.3, in that order, without overlap or rest. -/
theorem key_block {c : Suite} (h : Sound12 c) (master cr sr : Bytes) (hc : cr.length = 32) (hs : sr.length = 32) :
    ∃ k clientMac serverMac, deriveKeys c master cr sr = some k ∧
      Prf c master (lit "key expansion") (sr ++ cr) (2 * (c.macLen + c.keyLen + c.ivLen)) =
        clientMac ++ serverMac ++ k.clientKey ++ k.serverKey ++ k.clientIv ++ k.serverIv ∧
      clientMac.length = c.macLen ∧ serverMac.length = c.macLen ∧ k.clientKey.length = c.keyLen ∧
      k.serverKey.length = c.keyLen ∧ k.clientIv.length = c.ivLen ∧ k.serverIv.length = c.ivLen := by
  have hb : (keyBlock c master cr sr).length = 2 * (c.macLen + c.keyLen + c.ivLen) := Kdf.prf_length _ _ h.len h.hmac ..
  have hcut : ∀ o n, o + n ≤ 2 * (c.macLen + c.keyLen + c.ivLen) → (cut (keyBlock c master cr sr) o n).length = n := by
    intro o n hle
    unfold cut
    rw [List.length_take, List.length_drop, hb]
    omega
  have hoff : (if c.macLen > 0 then 0 + c.macLen + c.macLen else 0) = c.macLen + c.macLen := by split <;> omega
  have hjoin : ∀ (l : Bytes) (o n : Nat), l.take o ++ cut l o n = l.take (o + n) := fun l o n => List.take_add.symm
  have hd : deriveKeys c master cr sr = some {
      clientKey := cut (keyBlock c master cr sr) (c.macLen + c.macLen) c.keyLen
      serverKey := cut (keyBlock c master cr sr) (c.macLen + c.macLen + c.keyLen) c.keyLen
      clientIv := cut (keyBlock c master cr sr) (c.macLen + c.macLen + c.keyLen + c.keyLen) c.ivLen
      serverIv := cut (keyBlock c master cr sr) (c.macLen + c.macLen + c.keyLen + c.keyLen + c.ivLen) c.ivLen } := by
    unfold deriveKeys
    rw [if_pos ⟨hc, hs, h.iv⟩]
    dsimp only
    rw [hoff, if_pos]
    rw [h.creates _ (hcut _ _ (by omega)), h.creates _ (hcut _ _ (by omega))]
    rfl
  refine ⟨_, cut (keyBlock c master cr sr) 0 c.macLen, cut (keyBlock c master cr sr) c.macLen c.macLen, hd, ?_,
    hcut _ _ (by omega), hcut _ _ (by omega), hcut _ _ (by omega), hcut _ _ (by omega), hcut _ _ (by omega),
    hcut _ _ (by omega)⟩
  have h0 : cut (keyBlock c master cr sr) 0 c.macLen = (keyBlock c master cr sr).take c.macLen := rfl
  dsimp only
  rw [h0, hjoin, hjoin, hjoin, hjoin, hjoin, List.take_of_length_le (by omega)]
  exact (prf_eq h ..).symm

/-- **C72.** verify_data, twelve bytes; the two sides use different labels. -/
theorem verify_data12 {c : Suite} (h : Sound12 c) (master messages : Bytes) :
    verifyData12 c master true messages = Prf c master (lit "client finished") (c.hash messages) 12 ∧
    verifyData12 c master false messages = Prf c master (lit "server finished") (c.hash messages) 12 ∧
    ∀ b, (verifyData12 c master b messages).length = 12 :=
  ⟨prf_eq h .., prf_eq h .., fun _ => Kdf.prf_length _ _ h.len h.hmac ..⟩

/-- **C72.** The SRTP keying material: the exporter of RFC 5705 without context, as long as the profile says. It always
fits the array it is put in. -/
theorem srtp_keys12 {c : Suite} (h : Sound12 c) (profile : Nat) (master cr sr : Bytes) :
    srtpKeys12 c profile master cr sr = (srtpLen profile).map fun n =>
      Prf c master (lit "EXTRACTOR-dtls_srtp") (cr ++ sr) n := by
  rw [← keying_len]
  unfold srtpKeys12
  cases hk : keyingLen profile with
  | none => rfl
  | some n =>
    have hn : n ≤ 88 := by
      unfold keyingLen at hk
      split at hk <;> first | cases hk <;> decide | cases hk
    simp only [Option.bind_eq_bind, Option.bind_some, Option.map_some]
    rw [prf_eq h, if_pos (by rw [prf_len h]; exact hn)]

/-- **C72.** RFC 4279, section 2: different pre-shared keys give different premaster secrets. -/
theorem psk_injective (a b : Bytes) (h : E12.pskPms a = E12.pskPms b) : a = b := by
  have hl := congrArg List.length h
  unfold E12.pskPms at h hl
  simp only [List.length_append, List.length_replicate, beBytes_length] at hl
  exact (List.append_inj' h (by omega)).2

/-! ### Sessions -/

section
open Verif.E12 Verif.Props.Keying12

theorem exported12 {suites : Nat → Suite} (hs : ∀ n, Sound12 (suites n)) {f : Nat} {env : E12.PEnv} {St : Type} {b : Bool}
    {s : Ses St} {os : List Output} {km : Bytes} {p : Nat} (h : .keyingMaterial km p ∈ os)
    (ha : story os s = [] ∨ Announced (fill12 suites f env) b s (story os s)) :
    ∃ cs m cr sr n, s.eng.suite = some cs ∧ s.srtp = some p ∧ s.eng.master = some m ∧
      Randoms b s = (some cr, some sr) ∧ srtpLen p = some n ∧ km.length = n ∧
      km = Prf (suites cs) m (lit "EXTRACTOR-dtls_srtp") (cr ++ sr) n := by
  have hm : (.keyingMaterial km p : Event) ∈ story os s :=
    List.mem_append_left _ (List.mem_filterMap.mpr ⟨_, h, rfl⟩)
  have hk : KmOf (fill12 suites f env) b s km p := by
    rcases ha with g | ⟨g, _⟩ | ⟨km', p', g, hk⟩
    · rw [g] at hm; cases hm
    · rw [g] at hm; simp at hm
    · rw [g] at hm
      simp only [List.mem_cons, reduceCtorEq, Verif.E12.Event.keyingMaterial.injEq, List.not_mem_nil, or_false,
        false_or] at hm
      obtain ⟨rfl, rfl⟩ := hm
      exact hk
  obtain ⟨cs, m, cr, sr, h1, h2, h3, h4, h5⟩ := hk
  have h6 : srtpKeys12 (suites cs) p m cr sr = some km := h5
  rw [srtp_keys12 (hs cs)] at h6
  obtain ⟨n, hn, rfl⟩ := Option.map_eq_some_iff.mp h6
  exact ⟨cs, m, cr, sr, n, h1, h2, h3, h4, hn, prf_len (hs cs) .., rfl⟩

/-- **C72, client.** Keying material handed to the application is the RFC's exporter over the session's master secret and
randoms, the client's first, as long as the profile says. -/
theorem client_exports12 {suites : Nat → Suite} (hs : ∀ n, Sound12 (suites n)) {f : Nat} {env : E12.PEnv} {cfg : Cfg}
    {s0 : Ses CSt} (h : Shake12.Client.Begins (fill12 suites f env) cfg s0) (cs : List Call) (km : Bytes) (p : Nat)
    (hk : .keyingMaterial km p ∈ outputs (run C12.role (fill12 suites f env) s0 cs).1) :
    let s := (run C12.role (fill12 suites f env) s0 cs).2
    ∃ cs m cr sr n, s.eng.suite = some cs ∧ s.srtp = some p ∧ s.eng.master = some m ∧
      s.random = some cr ∧ s.peerRandom = some sr ∧ srtpLen p = some n ∧ km.length = n ∧
      km = Prf (suites cs) m (lit "EXTRACTOR-dtls_srtp") (cr ++ sr) n := by
  intro s
  obtain ⟨cs', m, cr, sr, n, h1, h2, h3, h4, h5⟩ := exported12 hs hk (client_keying h cs)
  exact ⟨cs', m, cr, sr, n, h1, h2, h3, (Prod.mk.inj h4).1, (Prod.mk.inj h4).2, h5⟩

/-- **C72, server.** -/
theorem server_exports12 {suites : Nat → Suite} (hs : ∀ n, Sound12 (suites n)) {f : Nat} {env : E12.PEnv} (cfg : Cfg)
    (now : Nat) (cs : List Call) (km : Bytes) (p : Nat)
    (hk : .keyingMaterial km p ∈
      outputs (run S12.role (fill12 suites f env) (S12.start (fill12 suites f env) cfg now) cs).1) :
    let s := (run S12.role (fill12 suites f env) (S12.start (fill12 suites f env) cfg now) cs).2
    ∃ cs m cr sr n, s.eng.suite = some cs ∧ s.srtp = some p ∧ s.eng.master = some m ∧
      s.peerRandom = some cr ∧ s.random = some sr ∧ srtpLen p = some n ∧ km.length = n ∧
      km = Prf (suites cs) m (lit "EXTRACTOR-dtls_srtp") (cr ++ sr) n := by
  intro s
  obtain ⟨cs', m, cr, sr, n, h1, h2, h3, h4, h5⟩ := exported12 hs hk (server_keying _ cfg now cs)
  exact ⟨cs', m, cr, sr, n, h1, h2, h3, (Prod.mk.inj h4).1, (Prod.mk.inj h4).2, h5⟩

end

/-! ## A case -/

/-- A toy HMAC of 32 bytes that depends on key and message. -/
def toy : Suite :=
  { hmac := fun k m => List.replicate 32 (k.foldl (· * 3 + ·) 1 + m.foldl (· * 5 + ·) 2)
    hash := fun m => List.replicate 32 (m.foldl (· * 7 + ·) 3)
    hashLen := 32, macLen := 0, keyLen := 16, ivLen := 12, creates := fun k => k.length == 16 }

theorem toy_sound : Sound toy where
  len := .inl rfl
  hmac _ _ := List.length_replicate
  hash _ := List.length_replicate
  key := by decide
  iv := rfl
  creates k h := by show (k.length == 16) = true; rw [h]; rfl

theorem toy_sound12 : Sound12 toy where
  len := by decide
  hmac _ _ := List.length_replicate
  iv := by decide
  creates k h := by show (k.length == 16) = true; rw [h]; rfl

example : (deriveHs toy [1, 2] [3]).isSome ∧ deriveHs toy [1, 2] [3] ≠ deriveHs toy [1, 2] [4] := by decide +kernel
example : (srtpKeys toy 8 [1]).map List.length = some 88 := by decide +kernel
example : (deriveKeys toy [1] (List.replicate 32 5) (List.replicate 32 6)).isSome := by decide +kernel

/-- Whole handshakes with these schedules: both sides hand out the same 88 bytes. -/
def env13 : E13.PEnv := fill13 (fun _ => toy) Agree13.srtpEnv
def toyOld : Suite := { toy with ivLen := 4 }
def env12 : E12.PEnv := fill12 (fun _ => toyOld) 0xC0A8 Agree12.srtpEnv

/-- The keying material among outputs. -/
def keying (os : List E12.Output) : List (Bytes × Nat) :=
  os.filterMap fun | .keyingMaterial km p => some (km, p) | _ => none

theorem case13 :
    (keying (E12.outputs (E13.Demo.clientRun env13 []).1)).map (fun x => (x.1.length, x.2)) = [(88, 8)] ∧
    keying (E12.outputs (E13.Demo.clientRun env13 []).1) = keying (E12.outputs (E13.Demo.serverRun env13 []).1) := by
  decide +kernel

theorem toyOld_sound : Sound12 toyOld where
  len := by decide
  hmac _ _ := List.length_replicate
  iv := by decide
  creates k h := by show (k.length == 16) = true; rw [h]; rfl

theorem case12 :
    (keying (E12.outputs (E12.Demo.clientRun env12 []).1)).map (fun x => (x.1.length, x.2)) = [(88, 8)] ∧
    keying (E12.outputs (E12.Demo.clientRun env12 []).1) = keying (E12.outputs (E12.Demo.serverRun env12 []).1) := by
  decide +kernel

end Verif.Props.Schedule

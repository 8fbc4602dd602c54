import Verif.Model.Sign
import Verif.Props.Verify
/-!
# C80: signatures an endpoint makes are those its peer accepts
-/
namespace Verif.Props.Sign
open Verif Verif.Sign M
open Verif.Verify (Back Curve verify verify12 verify13 schemeError)
open Verif.Props.Verify (KeyOf verify_iff)

/-- The certificate holds the public key for `k`, and what the primitive signs it verifies. -/
def Pair (b : Back) (k : Key) (cert : Bytes) : Prop :=
  ∃ pub, KeyOf b cert k.curve pub ∧
    ∀ tick hash data sig, k.prim tick hash data = some sig → b.prim k.curve hash pub data sig = true

/-- A key signs with exactly the hashes it says it can sign with. -/
theorem sign_iff (k : Key) (tick : Nat) (data : Bytes) (hash : Nat) (sig : Bytes) :
    sign k tick data hash = some sig ↔ hash ∈ hashes k ∧ k.prim tick hash data = some sig := by
  obtain ⟨m, c, p⟩ := k
  cases m
  · by_cases h4 : hash = 4
    · subst h4; simp [sign, hashes]
    · by_cases h5 : hash = 5
      · subst h5; simp [sign, hashes]
      · simp [sign, hashes, h4, h5]
  · cases c
    · by_cases h : hash = 4
      · subst h; simp [sign, hashes, hashAlgorithm]
      · simp [sign, hashes, hashAlgorithm, h]
    · by_cases h : hash = 5
      · subst h; simp [sign, hashes, hashAlgorithm]
      · simp [sign, hashes, hashAlgorithm, h]

theorem hashes_sub {k : Key} {h : Nat} (hm : h ∈ hashes k) : h = 4 ∨ h = 5 := by
  obtain ⟨m, c, p⟩ := k
  cases m <;> cases c <;> simp [hashes] at hm <;> omega

/-- Its own hash is one of them. -/
theorem own_hash (k : Key) : hashAlgorithm k ∈ hashes k := by
  obtain ⟨m, c, p⟩ := k
  cases m <;> cases c <;> simp [hashes, hashAlgorithm]

theorem signed {b : Back} {k : Key} {cert : Bytes} (hp : Pair b k cert) {tick hash : Nat} {data sig : Bytes}
    (h : sign k tick data hash = some sig) : verify b cert data sig hash 3 = some true := by
  obtain ⟨pub, h1, h2⟩ := hp
  obtain ⟨g1, g2⟩ := (sign_iff ..).mp h
  exact (verify_iff ..).mpr ⟨rfl, hashes_sub g1, k.curve, pub, h1, h2 _ _ _ _ g2⟩

theorem signed12 {b : Back} {k : Key} {cert : Bytes} (hp : Pair b k cert) {tick alg : Nat} {data sig : Bytes}
    (ha : alg % 256 = 3) (h : sign k tick data (alg / 256) = some sig) : verify12 b cert data alg sig = true := by
  unfold verify12
  rw [ha, signed hp h]
  rfl

/-- The algorithm a DTLS 1.2 server signs with is always one the key can sign with, whatever the client offered. -/
theorem selectSig_can (k : Key) (offered : Option (List Nat)) :
    let a := E12.S12.selectSig offered (algorithm k) (hashAlgorithm k) (hashes k)
    a % 256 = 3 ∧ a / 256 ∈ hashes k := by
  intro a
  have own : (256 * hashAlgorithm k + algorithm k) % 256 = 3 ∧ (256 * hashAlgorithm k + algorithm k) / 256 ∈ hashes k := by
    obtain ⟨m, c, p⟩ := k
    cases m <;> cases c <;> simp [hashes, hashAlgorithm, algorithm]
  cases offered with
  | none => exact own
  | some l =>
    change ((List.findSome? (E12.S12.findSig l (algorithm k) (hashes k)) _).getD _) % 256 = 3 ∧
      ((List.findSome? (E12.S12.findSig l (algorithm k) (hashes k)) _).getD _) / 256 ∈ hashes k
    cases hf : List.findSome? (E12.S12.findSig l (algorithm k) (hashes k)) (if hashAlgorithm k = 5 then [5, 4] else [4, 5])
    · exact own
    · rename_i x
      obtain ⟨h, _, hx⟩ := List.exists_of_findSome?_eq_some hf
      unfold E12.S12.findSig at hx
      split at hx
      · rename_i hc
        have := List.find?_some hx
        simp only [Bool.and_eq_true, beq_iff_eq] at this
        refine ⟨this.1, ?_⟩
        change x / 256 ∈ _
        rw [this.2]
        simpa using hc
      · cases hx

/-! ## DTLS 1.2 -/

section
open Verif.E12

theorem wp_tick {St : Type} (s : Ses St) (Q : Nat → Ses St → Prop) (F) :
    wp drawTick s Q F = Q s.eng.tick { s with eng := { s.eng with tick := s.eng.tick + 1 } } := rfl

/-- **C80, DTLS 1.2 server.** From each state, whatever the client offered: a ServerKeyExchange is signed such that its
client's check succeeds for the certificate of the key. -/
theorem server12_signs {b : Back} {k : Key} {cert : Bytes} (hp : Pair b k cert) (env : PEnv) (cr sr : Bytes) (group : Nat)
    (offered : Option (List Nat)) (s : Ses SSt) :
    wp (S12.serverKeyExchangeBody (Sign.with12 env k) cr sr group
        (S12.selectSig offered (algorithm k) (hashAlgorithm k) (hashes k))) s
      (fun body _ => ∃ pub alg sig,
        body = ([3] ++ beBytes 2 group ++ [UInt8.ofNat pub.length] ++ pub) ++ beBytes 2 alg ++ beBytes 2 sig.length ++ sig ∧
        alg ∈ [0x0403, 0x0503] ∧ verify12 b cert (C12.signedParams cr sr 3 group pub) alg sig = true)
      (fun _ _ => True) := by
  obtain ⟨h1, h2⟩ := selectSig_can k offered
  have h3 : S12.selectSig offered (algorithm k) (hashAlgorithm k) (hashes k) ∈ [0x0403, 0x0503] := by
    have := hashes_sub h2
    simp only [List.mem_cons, List.not_mem_nil, or_false]
    omega
  generalize S12.selectSig offered (algorithm k) (hashAlgorithm k) (hashes k) = alg at *
  unfold S12.serverKeyExchangeBody
  simp only [bind_eq, wp_bind, pure_eq, wp_pure, wp_get, wp_modify]
  refine wp_check_of (fun _ => ?_) trivial
  simp only [wp_tick]
  refine wp_orFatal_of (fun ours _ => ?_) trivial
  refine wp_orFatal_of (fun sig hs => ?_) trivial
  refine ⟨_, alg, sig, rfl, h3, ?_⟩
  have := signed12 hp h1 hs
  simpa [C12.signedParams] using this

/-- **C80, DTLS 1.2 client.** Its CertificateVerify signs the transcript such that the server's check succeeds. -/
theorem client12_signs {b : Back} {k : Key} {cert : Bytes} (hp : Pair b k cert) (env : PEnv) (s : Ses CSt) :
    wp (C12.certificateVerifyBody (Sign.with12 env k)) s
      (fun body _ => ∃ alg sig, body = beBytes 2 alg ++ beBytes 2 sig.length ++ sig ∧ alg ∈ [0x0403, 0x0503] ∧
        verify12 b cert s.eng.transcript alg sig = true)
      (fun _ _ => True) := by
  unfold C12.certificateVerifyBody
  simp only [bind_eq, wp_bind, pure_eq, wp_pure, wp_get]
  refine wp_orPanic_of (fun h hh => ?_) trivial
  refine wp_orPanic_of (fun sg hg => ?_) trivial
  simp only [wp_tick]
  refine wp_orFatal_of (fun sig hs => ?_) trivial
  cases hh; cases hg
  have hm := hashes_sub (own_hash k)
  refine ⟨_, sig, rfl, ?_, signed12 (tick := s.eng.tick) hp ?_ ?_⟩
  · simp only [List.mem_cons, List.not_mem_nil, or_false, algorithm]
    omega
  · simp only [algorithm]; omega
  · have : (256 * hashAlgorithm k + algorithm k) / 256 = hashAlgorithm k := by simp only [algorithm]; omega
    rw [this]
    exact hs

end

/-! ## DTLS 1.3 -/

section
open Verif.E13

theorem signed13 {b : Back} {k : Key} {cert : Bytes} (hp : Pair b k cert) {tick sch : Nat} {data sig : Bytes}
    (h : sign13 k tick data = some (sch, sig)) :
    sch ∈ [0x0403, 0x0503] ∧ schemeError b cert sch = none ∧ verify13 b cert data sch sig = true := by
  obtain ⟨s, hs, e⟩ : ∃ s, sign k tick data (hashAlgorithm k) = some s ∧
      scheme 3 (hashAlgorithm k) = some sch ∧ s = sig := by
    simp only [sign13, algorithm, Option.bind_eq_bind, Option.bind_eq_some_iff, Option.pure_def, Option.some.injEq,
      Prod.mk.injEq] at h
    obtain ⟨s, h1, x, h2, rfl, rfl⟩ := h
    exact ⟨s, h1, h2, rfl⟩
  obtain ⟨e, rfl⟩ := e
  have hv := signed hp hs
  obtain ⟨pub, ⟨⟨ec, key, param⟩, k1, _, _, k4⟩, _⟩ := hp
  obtain ⟨m, c, p⟩ := k
  cases k4
  cases c <;> cases e
  · refine ⟨by simp, ?_, ?_⟩
    · simp [schemeError, Verify.schemeGroup, Verify.certGroup, Verify.components, k1]
    · change (verify b cert data s 4 3).getD false = true
      rw [show verify b cert data s 4 3 = some true from hv]; rfl
  · refine ⟨by simp, ?_, ?_⟩
    · simp [schemeError, Verify.schemeGroup, Verify.certGroup, Verify.components, k1]
    · change (verify b cert data s 5 3).getD false = true
      rw [show verify b cert data s 5 3 = some true from hv]; rfl

/-- **C80, DTLS 1.3, both sides.** From each state: the scheme of a CertificateVerify is one of the two accepted, is that of
the certificate's curve, and the peer's check of the signature succeeds. -/
theorem signs13 {St : Type} {b : Back} {k : Key} {cert : Bytes} (hp : Pair b k cert) (env : PEnv) (label : Bytes)
    (s : Ses St) :
    wp (certificateVerifyBody (Sign.with13 env k) label) s
      (fun body _ => ∃ suite scheme sig, s.eng.suite = some suite ∧
        body = beBytes 2 scheme ++ beBytes 2 sig.length ++ sig ∧ scheme ∈ [0x0403, 0x0503] ∧
        schemeError b cert scheme = none ∧
        verify13 b cert (List.replicate 64 0x20 ++ label ++ env.hash suite s.eng.transcript) scheme sig = true)
      (fun _ _ => True) := by
  unfold certificateVerifyBody
  simp only [bind_eq, wp_bind, pure_eq, wp_pure, wp_get]
  refine wp_orPanic_of (fun suite hc => ?_) trivial
  simp only [wp_drawTick]
  refine wp_orFatal_of (fun x hx => ?_) trivial
  obtain ⟨sch, sig⟩ := x
  obtain ⟨h1, h2, h3⟩ := signed13 hp hx
  exact ⟨suite, sch, sig, hc, rfl, h1, h2, h3⟩

end

/-! ## Cases -/

/-- A key on P-256 for the certificate of `Props.Verify.back`. -/
def key (m : Maker) : Key :=
  { maker := m, curve := .p256, prim := fun _ h d => if h = 4 then some [E12.Demo.sum d] else none }

example (m : Maker) : Pair Props.Verify.back (key m) [77, 78] := by
  refine ⟨[5], ⟨_, rfl, rfl, rfl, rfl⟩, fun tick hash data sig h => ?_⟩
  simp only [key] at h ⊢
  split at h
  · rename_i h4
    cases h; subst h4
    simp [Props.Verify.back]
  · cases h

/-- With it both ends of both versions connect. The server has signed, and the client too. -/
theorem completes :
    let e12 := Sign.with12 (Verify.with12 MsgDemo.cert12 Props.Verify.back) (key .awsLc)
    let e13 := Sign.with13 (Verify.with13 MsgDemo.full13 Props.Verify.back) (key .awsLc)
    (E12.Demo.rounds e12 3).client.st = .awaitApplicationData ∧ (E12.Demo.rounds e12 3).server.st = .awaitApplicationData ∧
    (E12.Demo.rounds e12 3).server.peerCerts = [[77, 78]] ∧
    (E13.Demo.rounds e13 e13 4).client.st = .awaitApplicationData ∧
    (E13.Demo.rounds e13 e13 4).server.st = .awaitApplicationData ∧
    (E13.Demo.rounds e13 e13 4).server.peerCerts = [[77, 78]] := by
  decide +kernel

/-- A P-256 key signs with SHA-384 for a client that offers only this, with one back end. The other one falls back to
SHA-256, which is not in the list. -/
theorem makers_differ :
    E12.S12.selectSig (some [0x0503]) 3 4 (hashes (key .rustCrypto)) = 0x0503 ∧
    E12.S12.selectSig (some [0x0503]) 3 4 (hashes (key .awsLc)) = 0x0403 := by decide

end Verif.Props.Sign

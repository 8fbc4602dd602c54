import Verif.Model.Verify
import Verif.Props.ShakeServer12
import Verif.Props.ShakeServer13
import Verif.Props.MsgDemo
/-!
# C78: what a verified signature means, down to the elliptic-curve primitive
-/
namespace Verif.Props.Verify
open Verif Verif.Verify

/-- The key of the certificate is an elliptic-curve key `key` on `c`. -/
def KeyOf (b : Back) (cert : Bytes) (c : Curve) (key : Bytes) : Prop :=
  ∃ spki, b.x509 cert = some spki ∧ spki.ec = true ∧ spki.key = some key ∧ spki.param = .known c

/-- Verification accepts ECDSA with SHA-256 or SHA-384 only, with the key of the certificate, if the primitive does. -/
theorem verify_iff (b : Back) (cert data signature : Bytes) (hash sig : Nat) :
    verify b cert data signature hash sig = some true ↔
      sig = 3 ∧ (hash = 4 ∨ hash = 5) ∧ ∃ c key, KeyOf b cert c key ∧ b.prim c hash key data signature = true := by
  unfold verify
  split
  · rename_i h; simp [h]
  rename_i hs
  have hs : sig = 3 := Decidable.not_not.mp hs
  subst hs
  split
  · rename_i h
    simp [KeyOf, h]
  · rename_i spki h
    obtain ⟨ec, key, param⟩ := spki
    cases ec
    · simp [KeyOf, h]
    cases key with
    | none => simp [KeyOf, h]
    | some key =>
      cases param with
      | missing => simp [KeyOf, h]
      | invalid => simp [KeyOf, h]
      | other => simp [KeyOf, h]
      | known c =>
        by_cases hh : hash = 4 ∨ hash = 5
        · have hc : checkScheme 3 hash c = true := by
            rcases hh with rfl | rfl <;> cases c <;> decide
          simp only [KeyOf, h, hc, hh]
          constructor
          · intro g
            exact ⟨trivial, trivial, c, key, ⟨_, rfl, rfl, rfl, rfl⟩, Option.some.inj g⟩
          · rintro ⟨_, _, c', key', ⟨_, e1, _, e3, e4⟩, g⟩
            cases e1; cases e3; cases e4
            exact congrArg some g
        · have hc : checkScheme 3 hash c = false := by
            have h4 : (4 == hash) = false := by simpa using fun g : 4 = hash => hh (.inl g.symm)
            have h5 : (5 == hash) = false := by simpa using fun g : 5 = hash => hh (.inr g.symm)
            simp [checkScheme, allowList, h4, h5]
          simp [hc, hh]

/-- The `unreachable!()` of both back ends is not reached. -/
theorem verify_total (b : Back) (cert data signature : Bytes) (hash sig : Nat) :
    verify b cert data signature hash sig ≠ none := by
  unfold verify
  split
  · nofun
  split
  · nofun
  split
  · nofun
  split
  · nofun
  split
  · split
    · nofun
    · rename_i c _ hc
      split
      · nofun
      · rename_i hh
        exfalso
        apply hc
        have h4 : (4 == hash) = false := by simpa using fun g : 4 = hash => hh (.inl g.symm)
        have h5 : (5 == hash) = false := by simpa using fun g : 5 = hash => hh (.inr g.symm)
        simp [checkScheme, allowList, h4, h5]
  · nofun

theorem getD_true {o : Option Bool} (h : o.getD false = true) : o = some true := by
  cases o with
  | none => cases h
  | some x => exact congrArg some h

/-- Scheme, curve and hash of DTLS 1.3 belong together. -/
def Fits (scheme : Nat) (c : Curve) (hash : Nat) : Prop :=
  (scheme = 0x0403 ∧ c = .p256 ∧ hash = 4) ∨ (scheme = 0x0503 ∧ c = .p384 ∧ hash = 5)

theorem verify13_means {b : Back} {cert data signature : Bytes} {scheme : Nat} (hs : scheme ∈ [0x0403, 0x0503])
    (he : schemeError b cert scheme = none) (hv : verify13 b cert data scheme signature = true) :
    ∃ c hash key, Fits scheme c hash ∧ KeyOf b cert c key ∧ b.prim c hash key data signature = true := by
  have group : ∀ {c c' : Curve} {key : Bytes}, certGroup b cert = some c' → KeyOf b cert c key → c = c' := by
    rintro c c' key hg ⟨⟨ec, k, param⟩, h1, h2, h3, h4⟩
    cases h4
    rw [certGroup, h1] at hg
    exact Option.some.inj hg
  simp only [List.mem_cons, List.not_mem_nil, or_false] at hs
  rcases hs with rfl | rfl
  · have hv := (verify_iff ..).mp (getD_true (show (verify b cert data signature 4 3).getD false = true from hv))
    obtain ⟨_, _, c, key, hk, hp⟩ := hv
    have hg : certGroup b cert = some .p256 := by
      change (match certGroup b cert with
        | none => some Error.certificate
        | some actual => if Curve.p256 = actual then none else some .security) = none at he
      split at he
      · cases he
      · rename_i a ha
        split at he
        · rename_i h; rw [ha, h]
        · cases he
    cases group hg hk
    exact ⟨.p256, 4, key, .inl ⟨rfl, rfl, rfl⟩, hk, hp⟩
  · have hv := (verify_iff ..).mp (getD_true (show (verify b cert data signature 5 3).getD false = true from hv))
    obtain ⟨_, _, c, key, hk, hp⟩ := hv
    have hg : certGroup b cert = some .p384 := by
      change (match certGroup b cert with
        | none => some Error.certificate
        | some actual => if Curve.p384 = actual then none else some .security) = none at he
      split at he
      · cases he
      · rename_i a ha
        split at he
        · rename_i h; rw [ha, h]
        · cases he
    cases group hg hk
    exact ⟨.p384, 5, key, .inr ⟨rfl, rfl, rfl⟩, hk, hp⟩

theorem verify12_means {b : Back} {cert data signature : Bytes} {alg : Nat}
    (hv : verify12 b cert data alg signature = true) :
    alg % 256 = 3 ∧ (alg / 256 = 4 ∨ alg / 256 = 5) ∧
      ∃ c key, KeyOf b cert c key ∧ b.prim c (alg / 256) key data signature = true :=
  (verify_iff ..).mp (getD_true hv)

/-! ## DTLS 1.3 -/

section
open Verif.E13 Verif.Props.Shake13
open Verif.E12 (outputs Call)

/-- The peer's CertificateVerify: the primitive has verified its signature over the transcript before it with the key
of the peer's first certificate, on the curve and with the hash of the scheme. -/
def Proved13 {St : Type} (env : PEnv) (b : Back) (context : Bytes) (s : Ses St) (full : Bytes) : Prop :=
  ∃ body pre scheme sig suite cert c hash key, Got s mtCertificateVerify body ∧ At full pre mtCertificateVerify body ∧
    env.parseCertificateVerify body = some ([], (scheme, sig)) ∧ s.eng.suite = some suite ∧
    s.peerCerts.head? = some cert ∧ Fits scheme c hash ∧ KeyOf b cert c key ∧
    b.prim c hash key (List.replicate 64 0x20 ++ context ++ env.hash suite pre) sig = true

theorem _root_.Verif.Props.Shake13.CvOk.proved {St : Type} {env : PEnv} {b : Back} {s : Ses St} {context full : Bytes}
    (h : CvOk (with13 env b) context s full) : Proved13 env b context s full := by
  obtain ⟨body, pre, scheme, sig, suite, cert, h1, h2, h3, h4, h5, h6, h7, h8⟩ := h
  obtain ⟨c, hash, key, g1, g2, g3⟩ := verify13_means h4 h7 h8
  exact ⟨body, pre, scheme, sig, suite, cert, c, hash, key, h1, h2, h3, h5, h6, g1, g2, g3⟩

/-- **C78, DTLS 1.3 client.** -/
theorem client13_proved {env : PEnv} {b : Back} {cfg : Cfg} {hyb : Option (Nat × Nat)} {s0 : Ses CSt}
    (h0 : ClientStart (with13 env b) cfg hyb s0) (cs : List Call) :
    let r := run C13.role (with13 env b) s0 cs
    0 < (outputs r.1).count .connected + r.2.events.count .connected →
      ∃ full, full <+: r.2.eng.transcript ∧ Proved13 env b serverContext r.2 full := by
  intro r hc
  obtain ⟨_, pre, ⟨body, _, _, _, _, ⟨post, hp⟩, _⟩, _, h⟩ := (client_connected h0 cs).2 hc
  exact ⟨pre, ⟨_, by rw [hp, List.append_assoc]⟩, h.proved⟩

/-- **C78, DTLS 1.3 server**, if it has a certificate of the client. -/
theorem server13_proved (env : PEnv) (b : Back) (cfg : Cfg) (now : Nat) (auto : Bool) (cs : List Call) :
    let r := run S13.role (with13 env b) (S13.start (with13 env b) cfg now auto) cs
    0 < (outputs r.1).count .connected + r.2.events.count .connected → r.2.peerCerts ≠ [] →
      ∃ full, full <+: r.2.eng.transcript ∧ Proved13 env b clientContext r.2 full := by
  intro r hc hne
  obtain ⟨pre, ⟨body, _, _, _, _, ⟨post, hp⟩, _⟩, _, h | h⟩ := (server_connected (with13 env b) cfg now auto cs).2 hc
  · exact absurd h.1 hne
  · exact ⟨pre, ⟨_, by rw [hp, List.append_assoc]⟩, h.2.proved⟩

end

/-! ## DTLS 1.2 -/

section
open Verif.E12 Verif.Props.Shake12

/-- **C78, DTLS 1.2 client.** PSK, or the primitive has verified the signature over both randoms and the key exchange. -/
theorem client12_proved {env : PEnv} {b : Back} {cfg : Cfg} {s0 : Ses CSt} (h : Client.Begins (with12 env b) cfg s0)
    (hd : DecShort env.toEnv) (cs : List Call) :
    let r := run C12.role (with12 env b) s0 cs
    0 < (outputs r.1).count .connected + r.2.events.count .connected →
    ∃ suite, r.2.eng.suite = some suite ∧ (Config.isPsk suite = true ∨
      ∃ body curve group pub alg sig cr sr cert c key, Got r.2 mtServerKeyExchange body ∧
        env.parseServerKx suite body = some ([], .ecdh curve group pub (some (alg, sig))) ∧
        r.2.random = some cr ∧ r.2.peerRandom = some sr ∧ r.2.peerCerts.head? = some cert ∧
        alg ∈ [0x0403, 0x0503] ∧ KeyOf b cert c key ∧
        b.prim c (alg / 256) key (cr ++ sr ++ [curve] ++ beBytes 2 group ++ [UInt8.ofNat pub.length] ++ pub) sig
          = true) := by
  intro r hc
  obtain ⟨suite, h1, h2⟩ := ((client_connected h hd cs).2 hc).ske
  refine ⟨suite, h1, h2.imp_right ?_⟩
  rintro ⟨body, curve, group, pub, alg, sig, cr, sr, cert, g1, g2, g3, g4, g5, g6, g7⟩
  obtain ⟨k1, k2, c, key, k3, k4⟩ := verify12_means g7
  refine ⟨body, curve, group, pub, alg, sig, cr, sr, cert, c, key, g1, g2, g3, g4, g5, ?_, k3, k4⟩
  simp only [List.mem_cons, List.not_mem_nil, or_false] at g6 ⊢
  omega

/-- **C78, DTLS 1.2 server.** If it has a certificate of the client, the primitive has verified the signature over the
transcript before the CertificateVerify. -/
theorem server12_proved (env : PEnv) (b : Back) (cfg : Cfg) (now : Nat) (hd : DecShort env.toEnv) (cs : List Call) :
    let r := run S12.role (with12 env b) (S12.start (with12 env b) cfg now) cs
    0 < (outputs r.1).count .connected + r.2.events.count .connected → r.2.peerCerts ≠ [] →
    ∃ cert pre seq body alg sig c key, r.2.peerCerts.head? = some cert ∧
      .consumed seq mtCertificateVerify body ∈ r.2.eng.log ∧ After r.2 pre mtCertificateVerify seq body ∧
      env.parseCertificateVerify body = some ([], (alg, sig)) ∧ alg % 256 = 3 ∧ (alg / 256 = 4 ∨ alg / 256 = 5) ∧
      KeyOf b cert c key ∧ b.prim c (alg / 256) key pre sig = true := by
  intro r hc hne
  obtain ⟨cert, pre, seq, body, alg, sig, g1, g2, g3, g4, g5⟩ :=
    ((server_connected (with12 env b) cfg now hd cs).2 hc).cv hne
  obtain ⟨k1, k2, c, key, k3, k4⟩ := verify12_means g5
  exact ⟨cert, pre, seq, body, alg, sig, c, key, g1, g2, g3, g4, k1, k2, k3, k4⟩

end

/-! ## Cases -/

/-- A back end that knows one certificate, with a key on P-256. -/
def back : Back :=
  { x509 := fun c => if c = [77, 78] then some { ec := true, key := some [5], param := .known .p256 } else none
    prim := fun c h k d s => c == .p256 && h == 4 && k == [5] && s == [E12.Demo.sum d] }

/-- Both ends of both versions connect with it and have the peer's certificate. -/
theorem completes :
    (E12.Demo.rounds (with12 MsgDemo.cert12 back) 3).client.st = .awaitApplicationData ∧
    (E12.Demo.rounds (with12 MsgDemo.cert12 back) 3).server.st = .awaitApplicationData ∧
    (E12.Demo.rounds (with12 MsgDemo.cert12 back) 3).server.peerCerts = [[77, 78]] ∧
    (E13.Demo.rounds (with13 MsgDemo.full13 back) (with13 MsgDemo.full13 back) 4).client.st = .awaitApplicationData ∧
    (E13.Demo.rounds (with13 MsgDemo.full13 back) (with13 MsgDemo.full13 back) 4).server.st = .awaitApplicationData ∧
    (E13.Demo.rounds (with13 MsgDemo.full13 back) (with13 MsgDemo.full13 back) 4).server.peerCerts = [[77, 78]] := by
  decide +kernel

/-- A P-256 key with SHA-384 is for DTLS 1.2 only. -/
theorem crossed :
    let b : Back := { back with prim := fun _ _ _ _ _ => true }
    verify12 b [77, 78] [] 0x0503 [] = true ∧ schemeError b [77, 78] 0x0503 = some .security ∧
    schemeError b [77, 78] 0x0403 = none ∧ verify12 b [77, 78] [] 0x0401 [] = false ∧
    verify12 b [77] [] 0x0403 [] = false := by decide

end Verif.Props.Verify

import Verif.Props.ShakeServer12
import Verif.Props.ShakeServer13
import Verif.Props.MsgDemo
/-!
# C77: the signature algorithms of a handshake
-/
namespace Verif.Props.Sigs
open Verif

/-! ## DTLS 1.2 -/

section
open Verif.E12 Verif.Props.Shake12

/-- What the extension with the signature algorithms of each ClientHello says. -/
theorem offer12 (hasEcdh : Bool) (groups : List Nat) (d : Bytes) (h : (13, d) ∈ Msg12.clientExts hasEcdh groups) :
    Msg.val (Msg12.parseSigAlgs d) = some [0x0403, 0x0503, 0x0401, 0x0501] := by
  have : d = Msg.putList 2 supportedSigs := by cases hasEcdh <;> simp [Msg12.clientExts] at h <;> exact h
  rw [this]
  exact Props.Msg12.sigs_default

/-- **C77, DTLS 1.2 client.** It is connected with a pre-shared key, or has verified a ServerKeyExchange that is signed
with one of the algorithms it offered (`offer12`). -/
theorem client12_verifies {env : PEnv} {cfg : Cfg} {s0 : Ses CSt} (h : Client.Begins env cfg s0)
    (hd : DecShort env.toEnv) (cs : List Call) :
    let r := run C12.role env s0 cs
    0 < (outputs r.1).count .connected + r.2.events.count .connected →
    ∃ suite, r.2.eng.suite = some suite ∧ (Config.isPsk suite = true ∨
      ∃ body curve group pub alg sig cert data, Got r.2 mtServerKeyExchange body ∧
        env.parseServerKx suite body = some ([], .ecdh curve group pub (some (alg, sig))) ∧
        alg ∈ [0x0403, 0x0503, 0x0401, 0x0501] ∧ r.2.peerCerts.head? = some cert ∧
        env.verifySig cert data alg sig = true) := by
  intro r hc
  obtain ⟨suite, h1, h2⟩ := ((client_connected h hd cs).2 hc).ske
  refine ⟨suite, h1, h2.imp_right ?_⟩
  rintro ⟨body, curve, group, pub, alg, sig, cr, sr, cert, g1, g2, _, _, g5, g6, g7⟩
  exact ⟨body, curve, group, pub, alg, sig, cert, _, g1, g2, g6, g5, g7⟩

/-- The key can sign with algorithm `a`, of the hashes SHA-256 (4) and SHA-384 (5). -/
def CanSign (env : PEnv) (a : Nat) : Prop :=
  env.keySig = some (a % 256) ∧ a / 256 ∈ [4, 5] ∧ a / 256 ∈ env.keyHashes

theorem wide (x : SSt) (h : x ∉ [SSt.awaitClientHello, .sendServerHello, .sendCertificate, .sendServerKeyExchange,
    .closed]) : x ∉ [SSt.awaitClientHello, .closed] := by
  revert h; cases x <;> decide

/-- **C77, DTLS 1.2 server, in part.** Its ServerKeyExchange is signed with an algorithm of the client's list if the key
can sign with one of these. Missing: that there is no other signature, which is wrong (`signs_anyway12`). -/
theorem server12_signs_partial (env : PEnv) (cfg : Cfg) (now : Nat) (cs : List Call) :
    let s := (run S12.role env (S12.start env cfg now) cs).2
    s.st ∉ [SSt.awaitClientHello, .sendServerHello, .sendCertificate, .sendServerKeyExchange, .closed] →
    ∃ suite, s.eng.suite = some suite ∧ (Config.isPsk suite = true ∨
      ∃ hello ch pre seq g share alg sig, Got s mtClientHello hello ∧ env.parseClientHello hello = some ([], ch) ∧
        After s pre mtServerKeyExchange seq ([3] ++ beBytes 2 g ++ [UInt8.ofNat share.length] ++ share ++
          beBytes 2 alg ++ beBytes 2 sig.length ++ sig) ∧
        ((∃ d l, (13, d) ∈ ch.exts ∧ env.parseSigAlgs d = some l ∧ (alg ∈ l ∨ ∀ a ∈ l, ¬ CanSign env a)) ∨
          ∀ d, (13, d) ∈ ch.exts → env.parseSigAlgs d = none)) := by
  intro s hst
  obtain ⟨h1, _, h3⟩ := server_negotiated env cfg now cs
  obtain ⟨suite, g1, g2⟩ := h3 hst
  obtain ⟨hello, ch, _, k1, k2, _, _, _, _, _, _, _, _, _, k3, k4⟩ := h1 (wide _ hst)
  refine ⟨suite, g1, g2.imp_right ?_⟩
  rintro ⟨pre, seq, g, share, alg, sig, m1, _, ⟨sg, ha, e1, e2, m2⟩, _⟩
  refine ⟨hello, ch, pre, seq, g, share, alg, sig, k1, k2, m1, ?_⟩
  cases ho : s.clientSigs with
  | none => exact .inr (k4 ho)
  | some l =>
    obtain ⟨d, d1, d2⟩ := k3 l ho
    refine .inl ⟨d, l, d1, d2, ?_⟩
    rcases m2 with ⟨l', hl, ham, _⟩ | ⟨_, hno⟩
    · have hl : s.clientSigs = some l' := hl
      rw [ho] at hl; cases hl
      exact .inl ham
    · refine .inr fun a ham ⟨c1, c2, c3⟩ => hno l ho a ham ?_ c2 c3
      rw [e1] at c1
      exact (Option.some.inj c1).symm

end

/-! ## DTLS 1.3 -/

section
open Verif.E13 Verif.Props.Shake13
open Verif.E12 (outputs Call)

/-- The CertificateVerify of the peer is signed with one of the two schemes of each ClientHello and
CertificateRequest. -/
def Verified {St : Type} (env : PEnv) (s : Ses St) : Prop :=
  ∃ body scheme sig cert data, Got s mtCertificateVerify body ∧
    env.parseCertificateVerify body = some ([], (scheme, sig)) ∧ scheme ∈ [0x0403, 0x0503] ∧
    s.peerCerts.head? = some cert ∧ env.verifySig cert data scheme sig = true

theorem _root_.Verif.Props.Shake13.CvOk.verified {St : Type} {env : PEnv} {s : Ses St} {c full : Bytes}
    (h : CvOk env c s full) : Verified env s := by
  obtain ⟨body, pre, scheme, sig, suite, cert, h1, _, h3, h4, _, h6, _, h7⟩ := h
  exact ⟨body, scheme, sig, cert, _, h1, h3, h4, h6, h7⟩

/-- **C77, DTLS 1.3 client.** -/
theorem client13_verifies {env : PEnv} {cfg : Cfg} {hyb : Option (Nat × Nat)} {s0 : Ses CSt}
    (h0 : ClientStart env cfg hyb s0) (cs : List Call) :
    let r := run C13.role env s0 cs
    0 < (outputs r.1).count .connected + r.2.events.count .connected → Verified env r.2 := by
  intro r hc
  obtain ⟨_, pre, _, _, h⟩ := (client_connected h0 cs).2 hc
  exact h.verified

/-- **C77, DTLS 1.3 server.** If it has a certificate of the client. -/
theorem server13_verifies (env : PEnv) (cfg : Cfg) (now : Nat) (auto : Bool) (cs : List Call) :
    let r := run S13.role env (S13.start env cfg now auto) cs
    0 < (outputs r.1).count .connected + r.2.events.count .connected → r.2.peerCerts ≠ [] → Verified env r.2 := by
  intro r hc hne
  obtain ⟨pre, _, _, h | h⟩ := (server_connected env cfg now auto cs).2 hc
  · exact absurd h.1 hne
  · exact h.2.verified

end

/-! ## What is not so -/

section
open Verif.E12 Verif.E12.Demo

/-- A client with its own list of signature algorithms and a key of the given hash. The rest is as in `cert12`. -/
def offering (sigs : List Nat) (hash : Nat) : PEnv :=
  { MsgDemo.cert12 with
    auth := .cert 3 hash [4, 5]
    clientHelloBody := fun random cookie sid =>
      let ch := Msg12.clientHello MsgDemo.cert12 true random cookie sid
      Msg12.putClientHello { ch with exts := ch.exts.map fun e => if e.1 = 13 then (13, Msg.putList 2 sigs) else e } }

/-- A client and a server with different environments. -/
def mixed (cenv senv : PEnv) : Nat → Duo
  | 0 => { duo0 senv with client := (call C12.role cenv (C12.start cenv cfg 0) (.timeout 0)).2 }
  | n + 1 =>
    let d := mixed cenv senv n
    let (c1, ps, cl) := drain C12.role cenv 30 d.client
    let sv := (run S12.role senv d.server (ps.map .packet)).2
    let (c2, qs, sv) := drain S12.role senv 30 sv
    let cl := (run C12.role cenv cl (qs.map .packet)).2
    { client := cl, server := sv, cCalls := d.cCalls ++ c1 ++ qs.map .packet,
      sCalls := d.sCalls ++ ps.map .packet ++ c2 }

/-- The signature algorithms of the ClientHellos consumed. -/
def offers (l : List Ev) : List (Option (List Nat)) :=
  l.filterMap fun e => match e with
    | .consumed _ 1 b => (MsgDemo.cert12.parseClientHello b).map fun (_, ch) =>
      (ch.exts.find? (·.1 == 13)).bind fun e => MsgDemo.cert12.parseSigAlgs e.2
    | _ => none

/-- Those of the ServerKeyExchanges consumed. -/
def exchanges (l : List Ev) : List (Option Nat) :=
  l.filterMap fun e => match e with
    | .consumed _ 12 b => some (match MsgDemo.cert12.parseServerKx 0xC02B b with
      | some (_, .ecdh _ _ _ (some (alg, _))) => some alg
      | _ => none)
    | _ => none

/-- Those of the CertificateRequests consumed. -/
def requests (l : List Ev) : List (Option (List Nat)) :=
  l.filterMap fun e => match e with
    | .consumed _ 13 b => some ((Msg.val (Msg12.parseCertReq b)).map (·.sigs))
    | _ => none

/-- Those of the CertificateVerifys consumed. -/
def verifies (l : List Ev) : List (Option Nat) :=
  l.filterMap fun e => match e with
    | .consumed _ 15 b => some ((MsgDemo.cert12.parseCertificateVerify b).map (·.2.1))
    | _ => none

/-- **C77, DTLS 1.2.** Both ends are connected. The client offered RSA with SHA-256 only (0x0401) and was asked for that
only, yet each has signed with ECDSA (0x0403), and the server has accepted the client's signature. -/
theorem signs_anyway12 :
    let d := mixed (offering [0x0401] 4) MsgDemo.cert12 3
    d.server.st = .awaitApplicationData ∧ d.client.st = .awaitApplicationData ∧
    offers d.server.eng.log = [some [0x0401]] ∧ exchanges d.client.eng.log = [some 0x0403] ∧
    requests d.client.eng.log = [some [0x0401]] ∧ verifies d.server.eng.log = [some 0x0403] := by
  decide +kernel

/-- With the list of the code they sign with an algorithm of it. -/
theorem signs12 :
    let d := mixed MsgDemo.cert12 MsgDemo.cert12 3
    d.server.st = .awaitApplicationData ∧ d.client.st = .awaitApplicationData ∧
    offers d.server.eng.log = [some [0x0403, 0x0503, 0x0401, 0x0501]] ∧ exchanges d.client.eng.log = [some 0x0403] ∧
    requests d.client.eng.log = [some [0x0403, 0x0503, 0x0401, 0x0501]] ∧
    verifies d.server.eng.log = [some 0x0403] := by
  decide +kernel

/-- The key of these can sign with the first of that list, and with none of the other one. -/
example : CanSign MsgDemo.cert12 0x0403 ∧ ∀ a ∈ [0x0401], ¬ CanSign MsgDemo.cert12 a := by
  refine ⟨⟨rfl, by decide, by decide⟩, fun a ha h => ?_⟩
  simp only [List.mem_cons, List.not_mem_nil, or_false] at ha
  subst ha
  exact absurd h.1 (by decide)

end

section
open Verif.E13 Verif.E13.Demo

/-- A client with its own list of signature schemes. -/
def offering13 (schemes : List Nat) : PEnv :=
  { MsgDemo.full13 with
    clientHelloBody := fun random group pub cookie =>
      let ch := Msg13.clientHello MsgDemo.full13 150 random group pub cookie
      Msg13.putClientHello { ch with exts := ch.exts.map fun e =>
        if e.1 = 13 then (13, Msg.putList 2 schemes) else e } }

/-- A server that asks for a signature with one of the schemes. -/
def asking13 (schemes : List Nat) : PEnv :=
  { MsgDemo.full13 with certRequestBody := Msg.putVec 1 [] ++ Msg.putExts [(13, Msg.putList 2 schemes)] }

/-- The schemes of the CertificateVerifys taken. -/
def verifies13 (l : List Ev) : List (Option Nat) :=
  l.filterMap fun e => match e with
    | .taken _ 15 b => some ((MsgDemo.full13.parseCertificateVerify b).map (·.2.1))
    | _ => none

/-- The extensions 13 of the ClientHellos taken, without the length in front. -/
def offers13 (l : List Ev) : List (Option Bytes) :=
  l.filterMap fun e => match e with
    | .taken _ 1 b => (MsgDemo.full13.parseClientHello false b).map fun (_, ch) =>
      ch.exts.findSome? fun e => if e.1 = 13 then some (e.2.drop 2) else none
    | _ => none

/-- The bodies of the CertificateRequests taken. -/
def requests13 (l : List Ev) : List Bytes :=
  l.filterMap fun e => match e with
    | .taken _ 13 b => some b
    | _ => none

/-- **C77, DTLS 1.3.** The client offered ECDSA with P-384 only (0x0503) in both of its ClientHellos; the server has
signed with P-256 (0x0403). -/
theorem server_signs_anyway13 :
    let d := rounds (offering13 [0x0503]) MsgDemo.full13 4
    d.server.st = .awaitApplicationData ∧ d.client.st = .awaitApplicationData ∧
    offers13 d.server.eng.log = [some [5, 3], some [5, 3]] ∧ verifies13 d.client.eng.log = [some 0x0403] := by
  decide +kernel

/-- **C77, DTLS 1.3.** The server asked for 0x0503 only, at the end of its CertificateRequest; the client has signed with
0x0403. -/
theorem client_signs_anyway13 :
    let d := rounds MsgDemo.full13 (asking13 [0x0503]) 4
    d.server.st = .awaitApplicationData ∧ d.client.st = .awaitApplicationData ∧
    requests13 d.client.eng.log = [[0, 0, 8, 0, 13, 0, 4, 0, 2, 5, 3]] ∧
    verifies13 d.server.eng.log = [some 0x0403] := by
  decide +kernel

end

end Verif.Props.Sigs

import Verif.Lemmas.MsgInv
import Verif.Props.Msg12
/-!
# DTLS 1.2: only well-formed handshake messages are taken (C59)

The converse of `Verif.Props.Msg12`. `Says` lists the encodings of RFC 5246, RFC 6347 and RFC 4492, with
the message each stands for; whatever the endpoint takes for a message is one of them, to the last byte.
-/
namespace Verif.Props.MsgOnly12
open Verif Verif.Msg Verif.Msg12 Verif.Wire
open Verif.Props.Msg
open Verif.E12 (PEnv Body parseBody)

/-- A ClientHello without extension block. -/
def clientHelloBare (version : Nat) (random sid cookie : Bytes) (suites : List Nat) (cs : Bytes) : Bytes :=
  num 2 version ++ random ++ prefixed 1 sid ++ prefixed 1 cookie ++ prefixed 2 (suites.flatMap (num 2))
    ++ prefixed 1 cs

/-- A ServerHello without extension block. -/
def serverHelloBare (version : Nat) (random sid : Bytes) (suite : Nat) (c : UInt8) : Bytes :=
  num 2 version ++ random ++ prefixed 1 sid ++ num 2 suite ++ [c]

/-- The cipher suites and extension types an endpoint keeps of those offered. -/
def keptSuites (l : List Nat) : List Nat := l.filter fun s => [0xC02C, 0xC02B, 0xCCA9, 0xC0A8].contains s

def keptExts (l : List (Nat × Bytes)) : List (Nat × Bytes) :=
  l.filter fun e => [10, 11, 13, 14, 22, 23, 0xFF01, 35].contains e.1

/-- `Says suite t b m`: under the negotiated suite, the body `b` of a message of type `t` is an encoding of
`m`. -/
inductive Says (suite : Option Nat) : UInt8 → Bytes → Body → Prop
  | helloRequest : Says suite 0 [] .helloRequest
  | clientHello (version : Nat) (random sid cookie : Bytes) (suites : List Nat) (cs : Bytes)
      (exts : List (Nat × Bytes)) (h : HelloFits version random sid cookie suites cs exts)
      (hs : 1 ≤ (keptSuites suites).length ∧ (keptSuites suites).length ≤ 4)
      (hc : cs.filter (· == 0) = [0])
      (he : Once [10, 11, 13, 14, 22, 23, 0xFF01, 35] exts) :
      Says suite 1 (clientHello version random sid cookie suites cs exts)
        (.clientHello { version, random, sessionId := sid, cookie, suites := keptSuites suites,
                        compressions := [0], exts := keptExts exts })
  | clientHelloBare (version : Nat) (random sid cookie : Bytes) (suites : List Nat) (cs : Bytes)
      (h : HelloFits version random sid cookie suites cs [])
      (hs : 1 ≤ (keptSuites suites).length ∧ (keptSuites suites).length ≤ 4)
      (hc : cs.filter (· == 0) = [0]) :
      Says suite 1 (clientHelloBare version random sid cookie suites cs)
        (.clientHello { version, random, sessionId := sid, cookie, suites := keptSuites suites,
                        compressions := [0], exts := [] })
  | serverHello (version : Nat) (random sid : Bytes) (su : Nat) (c : UInt8) (exts : List (Nat × Bytes))
      (hv : version < 65536) (hr : random.length = 32) (hs : sid.length ≤ 32) (hsu : su < 65536)
      (hf : ∀ e ∈ exts, e.1 < 65536 ∧ e.2.length < 65536) (hl : (exts.flatMap extension).length < 65536)
      (he : Once [10, 11, 13, 14, 22, 23, 0xFF01, 35] exts) :
      Says suite 2 (serverHello version random sid su c exts)
        (.serverHello { version, random, sessionId := sid, suite := su, compression := c,
                        exts := if exts = [] then none else some (keptExts exts) })
  | serverHelloBare (version : Nat) (random sid : Bytes) (su : Nat) (c : UInt8)
      (hv : version < 65536) (hr : random.length = 32) (hs : sid.length ≤ 32) (hsu : su < 65536) :
      Says suite 2 (serverHelloBare version random sid su c)
        (.serverHello { version, random, sessionId := sid, suite := su, compression := c, exts := none })
  | helloVerify (version : Nat) (cookie : Bytes) (hv : version < 65536) (h1 : 1 ≤ cookie.length)
      (h2 : cookie.length ≤ 255) :
      Says suite 3 (num 2 version ++ prefixed 1 cookie) (.helloVerifyRequest version cookie)
  | newSessionTicket (b : Bytes) : Says suite 4 b (.newSessionTicket b)
  | certificate (cs : List Bytes) (hn : cs.length ≤ 32) (hc : ∀ c ∈ cs, c.length < 16777216)
      (hl : (cs.flatMap (prefixed 3)).length < 16777216) :
      Says suite 11 (prefixed 3 (cs.flatMap (prefixed 3))) (.certificate cs)
  | serverKxEcdh (su : Nat) (hsu : suite = some su) (hk : su ∈ [0xC02C, 0xC02B, 0xCCA9]) (curve : UInt8)
      (group alg : Nat) (pub sig : Bytes) (hg : group < 65536) (ha : alg < 65536) (hp : pub.length < 256)
      (hs : sig.length < 65536) :
      Says suite 12 ([curve] ++ num 2 group ++ prefixed 1 pub ++ num 2 alg ++ prefixed 2 sig)
        (.serverKeyExchange (.ecdh curve group pub (some (alg, sig))))
  | serverKxUnsigned (su : Nat) (hsu : suite = some su) (hk : su ∈ [0xC02C, 0xC02B, 0xCCA9]) (curve : UInt8)
      (group : Nat) (pub : Bytes) (hg : group < 65536) (hp : pub.length < 256) :
      Says suite 12 ([curve] ++ num 2 group ++ prefixed 1 pub) (.serverKeyExchange (.ecdh curve group pub none))
  | serverKxPsk (hsu : suite = some 0xC0A8) (hint : Bytes) (hl : hint.length < 65536) :
      Says suite 12 (prefixed 2 hint) (.serverKeyExchange (.psk hint))
  | certRequest (types : Bytes) (sigs : List Nat) (names : List Bytes) (ht : types.length < 256)
      (ht1 : types.filter (· == 64) = [64]) (hu : ∀ v ∈ sigs, v < 65536) (hsl : sigs.length < 32768)
      (hs : (sigs.filter fun v => [0x0403, 0x0503, 0x0401, 0x0501].contains v).length ≤ 4)
      (hn : names.length ≤ 32) (hne : ∀ n ∈ names, 1 ≤ n.length ∧ n.length < 65536)
      (hnl : (names.flatMap (prefixed 2)).length < 65536) :
      Says suite 13
        (prefixed 1 types ++ prefixed 2 (sigs.flatMap (num 2)) ++ prefixed 2 (names.flatMap (prefixed 2)))
        (.certificateRequest ((sigs.filter fun v => [0x0403, 0x0503, 0x0401, 0x0501].contains v).map
          fun v => UInt8.ofNat (v / 256)))
  | helloDone : Says suite 14 [] .serverHelloDone
  | certificateVerify (alg : Nat) (sig : Bytes) (ha : alg < 65536) (hs : sig.length < 65536) :
      Says suite 15 (num 2 alg ++ prefixed 2 sig) (.certificateVerify alg sig)
  | clientKxEcdh (su : Nat) (hsu : suite = some su) (hk : su ∈ [0xC02C, 0xC02B, 0xCCA9]) (pub : Bytes)
      (hp : pub.length < 256) : Says suite 16 (prefixed 1 pub) (.clientKeyExchange (.ecdh pub))
  | clientKxPsk (hsu : suite = some 0xC0A8) (identity : Bytes) (hl : identity.length < 65536) :
      Says suite 16 (prefixed 2 identity) (.clientKeyExchange (.psk identity))
  | finished (su : Nat) (hsu : suite = some su) (vd : Bytes) (hl : vd.length = 12) :
      Says suite 20 vd (.finished vd)
  | unknown (t : UInt8) (ht : t ∉ [0, 1, 2, 3, 4, 11, 12, 13, 14, 15, 16, 20]) (b : Bytes) :
      Says suite t b (.unknown t)

/-! ## Inversion of each parser -/

theorem opt_some {α : Type} {p : PRes α} {r : Bytes} {a : α} (h : opt p = some (r, a)) : p = .ok r a := by
  cases p with
  | ok r' a' => simp only [opt, Option.some.injEq, Prod.mk.injEq] at h; rw [h.1, h.2]
  | _ => cases h

theorem clientExts_inv {i : Bytes} {l : List (Nat × Bytes)} (h : parseClientExts i = .ok [] l) :
    (i = [] ∧ l = []) ∨
      ∃ es : List (Nat × Bytes), i = putExts es ∧ Fits es ∧ (es.flatMap putExt).length < 65536
        ∧ l = known supportedExts es ∧ (l.map (·.1)).Nodup := by
  unfold parseClientExts at h
  split at h
  · cases h; exact .inl ⟨rfl, rfl⟩
  · obtain ⟨r1, len, h1, h⟩ := bind_ok h
    obtain ⟨e1, hlt⟩ := beNat_inv h1
    split at h
    · next h0 =>
      cases h
      subst h0
      exact .inr ⟨[], by rw [e1]; simp [putExts, putVec], by simp [Fits], by simp, rfl, by simp⟩
    · obtain ⟨r2, d, h2, h⟩ := bind_ok h
      obtain ⟨e2, hl⟩ := take_ok h2
      obtain ⟨r3, l3, h3, h⟩ := bind_ok h
      cases h
      obtain ⟨es, ee, hf, el, hn, -⟩ := parseExtData_inv h3
      refine .inr ⟨es, ?_, hf, by rw [← ee]; omega, el, hn⟩
      rw [e1, e2, putExts, putVec, ← ee, hl, List.append_nil]

theorem kept_eq : keptSuites = List.filter fun s => supportedSuites.contains s := rfl

theorem keptExts_eq : keptExts = known supportedExts := rfl

theorem bare_eq (version : Nat) (random sid cookie : Bytes) (suites : List Nat) (cs : Bytes) :
    clientHelloBare version random sid cookie suites cs =
      putHead version random sid cookie ++ putList 2 suites ++ putVec 1 cs := by
  have h : (num 2 : Nat → Bytes) = beBytes 2 := by funext v; exact num_eq 2 v
  simp only [clientHelloBare, prefixed_eq, h, putHead, putList]

theorem client_hello_only {suite : Option Nat} {b : Bytes} {h : E12.ClientHello}
    (hp : parseClientHello b = .ok [] h) : Says suite 1 b (.clientHello h) := by
  obtain ⟨r1, hd, h1, hp⟩ := bind_ok hp
  obtain ⟨e1, hv, hr, hs, hc⟩ := parseHead_inv h1
  obtain ⟨r2, d, h2, hp⟩ := bind_ok hp
  obtain ⟨e2, hdl⟩ := vec_inv h2
  obtain ⟨r3, su, h3, hp⟩ := bind_ok hp
  split at hp
  · cases hp
  · next hr3 =>
    have hr3 : r3 = [] := by simpa using hr3
    subst hr3
    obtain ⟨xs, ex, hu, hsu, hcap, hne⟩ := many1_inv (beBytes 2) (fun v => v < 65536) num2_inv h3
    obtain ⟨r4, cs, h4, hp⟩ := bind_ok hp
    obtain ⟨dc, e4, hdc, hcs, hcs0⟩ := parseCompression_inv h4
    obtain ⟨r5, es, h5, hp⟩ := bind_ok hp
    cases hp
    have hxl : xs.length < 32768 := by rw [ex, flat2_length] at hdl; omega
    have hk : 1 ≤ (keptSuites xs).length ∧ (keptSuites xs).length ≤ 4 := by
      have : keptSuites xs = su := hsu.symm
      rw [this]
      exact ⟨List.length_pos_iff.mpr hne, hcap⟩
    have hsu' : su = keptSuites xs := hsu
    rcases clientExts_inv h5 with ⟨e5, el⟩ | ⟨xe, e5, hf, hfl, el, hn⟩
    · have := Says.clientHelloBare (suite := suite) hd.version hd.random hd.sessionId hd.cookie xs dc
        ⟨hv, hr, hs, hc, ⟨hu, hxl⟩, hdc, by simp⟩ hk (by rw [← hcs, hcs0])
      rw [bare_eq] at this
      rw [e1, e2, e4, e5, hcs0, el, hsu', ex]
      simpa [putList] using this
    · have := Says.clientHello (suite := suite) hd.version hd.random hd.sessionId hd.cookie xs dc xe
        ⟨hv, hr, hs, hc, ⟨hu, hxl⟩, hdc, ⟨hf, by rw [extension_eq]; exact hfl⟩⟩ hk (by rw [← hcs, hcs0])
        ((once_iff supportedExts xe).mpr (by rw [← el]; exact hn))
      rw [clientHello_eq] at this
      rw [e1, e2, e4, e5, hcs0, hsu', ex, el]
      simpa [putList, keptExts_eq] using this

theorem server_hello_only {suite : Option Nat} {b : Bytes} {h : E12.ServerHello}
    (hp : parseServerHello b = .ok [] h) : Says suite 2 b (.serverHello h) := by
  have hp0 := hp
  obtain ⟨r1, v, h1, hp⟩ := bind_ok hp
  obtain ⟨e1, hv⟩ := beNat_inv h1
  obtain ⟨r2, rnd, h2, hp⟩ := bind_ok hp
  obtain ⟨e2, hr⟩ := take_ok h2
  obtain ⟨r3, sid, h3, hp⟩ := bind_ok hp
  obtain ⟨e3, hs, -⟩ := idParse_inv h3
  obtain ⟨r4, su, h4, hp⟩ := bind_ok hp
  obtain ⟨e4, hsu⟩ := beNat_inv h4
  obtain ⟨r5, c, h5, hp⟩ := bind_ok hp
  obtain ⟨e5, hc⟩ := beNat_inv h5
  obtain ⟨r6, es, h6, hp⟩ := bind_ok hp
  cases hp
  have e5' : r4 = [UInt8.ofNat c] ++ r5 := by rw [e5]; simp [beBytes]
  have hb : b = beBytes 2 v ++ rnd ++ putVec 1 sid ++ beBytes 2 su ++ [UInt8.ofNat c] ++ r5 := by
    rw [e1, e2, e3, e4, e5']; simp
  rcases parseServerExts_inv h6 with ⟨e6, rfl⟩ | ⟨e6, rfl⟩ | ⟨xe, hne, e6, hf, hfl, rfl⟩
  · have := Says.serverHelloBare (suite := suite) v rnd sid su (UInt8.ofNat c) (by omega) hr hs (by omega)
    simp only [serverHelloBare, num_eq, prefixed_eq] at this
    rw [hb, e6]
    simpa using this
  · have := Says.serverHello (suite := suite) v rnd sid su (UInt8.ofNat c) [] (by omega) hr hs (by omega)
      (by simp) (by simp) (by simp [Once])
    rw [serverHello_eq] at this
    rw [hb, e6]
    simpa using this
  · have hfe : (xe.flatMap extension).length < 65536 := by rw [extension_eq]; exact hfl
    have hread := Props.Msg12.server_hello_read v rnd sid su (UInt8.ofNat c) xe (by omega) hr hs (by omega) hne hf hfe
    rw [serverHello_eq, ← e6, ← hb, hp0] at hread
    split at hread
    · next hon =>
      have := Says.serverHello (suite := suite) v rnd sid su (UInt8.ofNat c) xe (by omega) hr hs (by omega)
        hf hfe hon
      rw [serverHello_eq, if_neg hne] at this
      rw [hb, e6]
      exact this
    · cases hread

theorem certificate_only {suite : Option Nat} {b : Bytes} {cs : List Bytes}
    (hp : parseCertificate b = .ok [] cs) : Says suite 11 b (.certificate cs) := by
  obtain ⟨r1, d, h1, hp⟩ := bind_ok hp
  obtain ⟨e1, hd⟩ := vec_inv h1
  obtain ⟨r2, l, h2, hp⟩ := bind_ok hp
  cases hp
  obtain ⟨-, xs, ex, hx, hl, hc⟩ := loopIf_inv (putVec 3) (fun c => c.length < 16777216)
    (fun i r x h => by have := vec_inv h; exact ⟨this.1, by have := this.2; omega⟩)
    (fun x => putVec_ne_nil 3 x (by omega)) h2
  have hl : cs = xs := by rw [hl]; simp
  subst hl
  have hp3 : (prefixed 3 : Bytes → Bytes) = putVec 3 := by funext v; exact prefixed_eq 3 v
  have := Says.certificate (suite := suite) cs hc hx (by rw [hp3, ← ex]; omega)
  rw [hp3, ← ex] at this
  rw [e1, List.append_nil]
  exact this

theorem kxPsk_inv {suite : Nat} {p : Bool} (h : kxPsk suite = some p) :
    (p = false ∧ suite ∈ [0xC02C, 0xC02B, 0xCCA9]) ∨ (p = true ∧ suite = 0xC0A8) := by
  unfold kxPsk at h
  split at h
  · next hs =>
    cases h
    exact .inl ⟨rfl, by simpa using hs⟩
  · split at h
    · next hs => cases h; exact .inr ⟨rfl, hs⟩
    · cases h

theorem server_kx_only {su : Nat} {b : Bytes} {k : E12.ServerKx}
    (hp : parseServerKx su b = .ok [] k) : Says (some su) 12 b (.serverKeyExchange k) := by
  unfold parseServerKx at hp
  split at hp
  · next hk =>
    rcases kxPsk_inv hk with ⟨-, hk⟩ | ⟨hk, -⟩
    · obtain ⟨r1, c, h1, hp⟩ := bind_ok hp
      obtain ⟨e1, hc⟩ := beNat_inv h1
      obtain ⟨r2, g, h2, hp⟩ := bind_ok hp
      obtain ⟨e2, hg⟩ := beNat_inv h2
      obtain ⟨r3, pub, h3, hp⟩ := bind_ok hp
      obtain ⟨e3, hpl⟩ := vec_inv h3
      have e1' : b = [UInt8.ofNat c] ++ r1 := by rw [e1]; simp [beBytes]
      split at hp
      · next hr =>
        have hr : r3 = [] := by simpa using hr
        cases hp
        have := Says.serverKxUnsigned su rfl hk (UInt8.ofNat c) g pub (by omega) (by omega)
        simp only [num_eq, prefixed_eq] at this
        rw [e1', e2, e3]
        simpa using this
      · obtain ⟨r4, sg, h4, hp⟩ := bind_ok hp
        obtain ⟨e4, ha, hs⟩ := parseSigned_inv h4
        cases hp
        have := Says.serverKxEcdh su rfl hk (UInt8.ofNat c) g sg.1 pub sg.2 (by omega) ha (by omega) hs
        simp only [num_eq, prefixed_eq] at this
        rw [e1', e2, e3, e4]
        simpa [putSigned] using this
    · cases hk
  · next hk =>
    rcases kxPsk_inv hk with ⟨hk, -⟩ | ⟨-, rfl⟩
    · cases hk
    · obtain ⟨r1, d, h1, hp⟩ := bind_ok hp
      obtain ⟨e1, hd⟩ := vec_inv h1
      cases hp
      have := Says.serverKxPsk (suite := some 0xC0A8) rfl d (by omega)
      rw [prefixed_eq] at this
      rw [e1, List.append_nil]
      exact this
  · cases hp

theorem client_kx_only {su : Nat} {b : Bytes} {k : E12.ClientKx}
    (hp : parseClientKx su b = .ok [] k) : Says (some su) 16 b (.clientKeyExchange k) := by
  unfold parseClientKx at hp
  split at hp
  · next hk =>
    rcases kxPsk_inv hk with ⟨-, hk⟩ | ⟨hk, -⟩
    · obtain ⟨r1, d, h1, hp⟩ := bind_ok hp
      obtain ⟨e1, hd⟩ := vec_inv h1
      cases hp
      have := Says.clientKxEcdh (suite := some su) su rfl hk d (by omega)
      rw [prefixed_eq] at this
      rw [e1, List.append_nil]
      exact this
    · cases hk
  · next hk =>
    rcases kxPsk_inv hk with ⟨hk, -⟩ | ⟨-, rfl⟩
    · cases hk
    · obtain ⟨r1, d, h1, hp⟩ := bind_ok hp
      obtain ⟨e1, hd⟩ := vec_inv h1
      cases hp
      have := Says.clientKxPsk (suite := some 0xC0A8) rfl d (by omega)
      rw [prefixed_eq] at this
      rw [e1, List.append_nil]
      exact this
  · cases hp

theorem name_inv : ∀ (i r x : Bytes), parseName i = .ok r x →
    i = putVec 2 x ++ r ∧ (1 ≤ x.length ∧ x.length < 65536) := by
  intro i r x h
  obtain ⟨r1, len, h1, h2⟩ := bind_ok h
  obtain ⟨e1, hlt⟩ := beNat_inv h1
  split at h2
  · cases h2
  · next hm =>
    obtain ⟨e2, hl⟩ := take_ok h2
    subst hl
    exact ⟨by rw [e1, e2, putVec, List.append_assoc], by omega, by omega⟩

theorem cert_request_only {suite : Option Nat} {b : Bytes} {c : CertReq} (hp : parseCertReq b = .ok [] c) :
    Says suite 13 b (.certificateRequest (c.sigs.map fun s => UInt8.ofNat (s / 256))) := by
  obtain ⟨r1, d, h1, hp⟩ := bind_ok hp
  obtain ⟨e1, hd⟩ := vec_inv h1
  obtain ⟨r2, ts, h2, hp⟩ := bind_ok hp
  split at hp
  · cases hp
  · next hr2 =>
    have hr2 : r2 = [] := by simpa using hr2
    subst hr2
    obtain ⟨xt, et, -, hts, hcap, hne⟩ := many1_inv (fun b => [b]) (fun _ => True) byte_inv h2
    rw [flat1] at et
    subst et
    obtain ⟨r3, d3, h3, hp⟩ := bind_ok hp
    obtain ⟨e3, hd3⟩ := vec_inv h3
    obtain ⟨r4, sg, h4, hp⟩ := bind_ok hp
    split at hp
    · cases hp
    · next hr4 =>
      have hr4 : r4 = [] := by simpa using hr4
      subst hr4
      obtain ⟨xs, es, hu, hsg, hsc⟩ := many0_inv (beBytes 2) (fun v => v < 65536) num2_inv h4
      obtain ⟨r5, d5, h5, hp⟩ := bind_ok hp
      obtain ⟨e5, hd5⟩ := vec_inv h5
      obtain ⟨r6, au, h6, hp⟩ := bind_ok hp
      cases hp
      obtain ⟨-, xn, en, hn, hau, hac⟩ := loopIf_inv (putVec 2) (fun x => 1 ≤ x.length ∧ x.length < 65536)
        name_inv (fun x => putVec_ne_nil 2 x (by omega)) h6
      have hau : au = xn := by rw [hau]; simp
      subst hau
      have ht1 : d.filter (· == 64) = [64] := by
        have h1 := List.length_pos_iff.mpr hne
        have e : ts = d.filter (· == 64) := hts
        obtain ⟨x, hx⟩ := List.length_eq_one_iff.mp (show ts.length = 1 by omega)
        have : x ∈ d.filter (· == 64) := by rw [← e, hx]; simp
        have := (List.mem_filter.mp this).2
        rw [← e, hx]
        simpa using this
      have hp2 : (prefixed 2 : Bytes → Bytes) = putVec 2 := by funext v; exact prefixed_eq 2 v
      have hn2 : (num 2 : Nat → Bytes) = beBytes 2 := by funext v; exact num_eq 2 v
      have hsg' : sg = xs.filter fun v => [0x0403, 0x0503, 0x0401, 0x0501].contains v := hsg
      have := Says.certRequest (suite := suite) d xs au (by omega) ht1 hu
        (by rw [es, flat2_length] at hd3; omega) (by rw [← hsg']; exact hsc) hac hn
        (by rw [hp2, ← en]; omega)
      rw [hp2, hn2, ← en, ← es, prefixed_eq, ← hsg'] at this
      rw [e1, e3, e5, List.append_nil]
      simpa using this

/-- Whatever body the parser of its type uses up to the last byte is an encoding of the message it returns. -/
theorem parsed_only (env : PEnv) (ecdh : Bool) (cert : Bytes) (t : UInt8) (suite : Option Nat) (b : Bytes)
    (m : Body) (h : parseBody (codec env ecdh cert).toEnv t suite b = some ([], m)) : Says suite t b m := by
  unfold parseBody at h
  have map_some : ∀ {α : Type} {o : Option (Bytes × α)} {f : α → Body},
      (o.map fun (r, x) => (r, f x)) = some ([], m) → ∃ x, o = some ([], x) ∧ m = f x := by
    intro α o f h
    cases o with
    | none => cases h
    | some p =>
      simp only [Option.map_some, Option.some.injEq, Prod.mk.injEq] at h
      exact ⟨p.2, by rw [← h.1], h.2.symm⟩
  by_cases h0 : t = E12.mtHelloRequest
  · rw [if_pos h0] at h; subst h0; cases h; exact Says.helloRequest
  rw [if_neg h0] at h
  by_cases h1 : t = E12.mtClientHello
  · rw [if_pos h1] at h; subst h1
    obtain ⟨x, hx, rfl⟩ := map_some h
    exact client_hello_only (opt_some hx)
  rw [if_neg h1] at h
  by_cases h2 : t = E12.mtHelloVerifyRequest
  · rw [if_pos h2] at h; subst h2
    obtain ⟨x, hx, rfl⟩ := map_some (f := fun x : Nat × Bytes => .helloVerifyRequest x.1 x.2) h
    obtain ⟨r1, v, p1, p⟩ := bind_ok (opt_some hx)
    obtain ⟨e1, hv⟩ := beNat_inv p1
    obtain ⟨r2, c, p2, p⟩ := bind_ok p
    obtain ⟨e2, hc, -⟩ := idParse_inv p2
    split at p
    · cases p
    · next hne =>
      cases p
      have := Says.helloVerify (suite := suite) v c (by omega)
        (List.length_pos_iff.mpr (by simpa using hne)) hc
      rw [num_eq, prefixed_eq] at this
      rw [e1, e2, List.append_nil]
      exact this
  rw [if_neg h2] at h
  by_cases h3 : t = E12.mtServerHello
  · rw [if_pos h3] at h; subst h3
    obtain ⟨x, hx, rfl⟩ := map_some h
    exact server_hello_only (opt_some hx)
  rw [if_neg h3] at h
  by_cases h4 : t = E12.mtCertificate
  · rw [if_pos h4] at h; subst h4
    obtain ⟨x, hx, rfl⟩ := map_some h
    exact certificate_only (opt_some hx)
  rw [if_neg h4] at h
  by_cases h5 : t = E12.mtServerKeyExchange
  · rw [if_pos h5] at h; subst h5
    cases suite with
    | none => cases h
    | some su =>
      obtain ⟨x, hx, rfl⟩ := map_some h
      exact server_kx_only (opt_some hx)
  rw [if_neg h5] at h
  by_cases h6 : t = E12.mtCertificateRequest
  · rw [if_pos h6] at h; subst h6
    obtain ⟨x, hx, rfl⟩ := map_some h
    rw [Props.Msg12.codec_request] at hx
    dsimp only at hx
    cases hc : opt (parseCertReq b) with
    | none => rw [hc] at hx; cases hx
    | some p =>
      rw [hc] at hx
      simp only [Option.map_some, Option.some.injEq, Prod.mk.injEq] at hx
      have hc' : parseCertReq b = .ok [] p.2 := opt_some (by rw [hc, ← hx.1])
      rw [← hx.2]
      exact cert_request_only hc'
  rw [if_neg h6] at h
  by_cases h7 : t = E12.mtServerHelloDone
  · rw [if_pos h7] at h; subst h7; cases h; exact Says.helloDone
  rw [if_neg h7] at h
  by_cases h8 : t = E12.mtCertificateVerify
  · rw [if_pos h8] at h; subst h8
    obtain ⟨x, hx, rfl⟩ := map_some (f := fun x : Nat × Bytes => .certificateVerify x.1 x.2) h
    obtain ⟨e, ha, hs⟩ := parseSigned_inv (opt_some hx)
    have := Says.certificateVerify (suite := suite) x.1 x.2 ha hs
    rw [num_eq, prefixed_eq] at this
    rw [e, List.append_nil]
    exact this
  rw [if_neg h8] at h
  by_cases h9 : t = E12.mtClientKeyExchange
  · rw [if_pos h9] at h; subst h9
    cases suite with
    | none => cases h
    | some su =>
      obtain ⟨x, hx, rfl⟩ := map_some h
      exact client_kx_only (opt_some hx)
  rw [if_neg h9] at h
  by_cases h10 : t = E12.mtNewSessionTicket
  · rw [if_pos h10] at h; subst h10; cases h; exact Says.newSessionTicket b
  rw [if_neg h10] at h
  by_cases h11 : t = E12.mtFinished
  · rw [if_pos h11] at h; subst h11
    cases suite with
    | none => cases h
    | some su =>
      obtain ⟨x, hx, rfl⟩ := map_some h
      have hx : take 12 b = .ok [] x := opt_some hx
      obtain ⟨e, hl⟩ := take_ok hx
      rw [List.append_nil] at e
      subst e
      exact Says.finished su rfl b hl
  rw [if_neg h11] at h
  cases h
  refine Says.unknown t ?_ []
  simp only [List.mem_cons, List.not_mem_nil, or_false, not_or]
  exact ⟨h0, h1, h3, h2, h10, h4, h5, h6, h7, h8, h9, h11⟩

/-- So whatever the endpoint takes from the queue for a message, of any type and in any state, is logged with
its body, and that body is an encoding of the message handed to the state machine. -/
theorem taken_only (env : PEnv) (ecdh : Bool) (cert : Bytes) (wanted : UInt8) (s s' : E12.Eng) (m : Body)
    (h : E12.nextHandshake (codec env ecdh cert).toEnv wanted s = (.ok (some m), s')) :
    ∃ seq t b, s'.log = .consumed seq t b :: s.log ∧ Says s.suite t b m := by
  unfold E12.nextHandshake at h
  split at h
  · cases h
  · split at h
    · cases h
    · next first rest hv =>
      unfold E12.defragment at h
      dsimp only at h
      split at h
      · cases h
      · split at h
        · cases h
        · split at h
          · cases h
          · next left b hb =>
            split at h
            · cases h
            · next hleft =>
              split at h
              · cases h
              · cases h
                refine ⟨_, _, _, rfl, ?_⟩
                by_cases hl : left = []
                · subst hl
                  exact parsed_only env ecdh cert _ _ _ _ hb
                · have hu : E12.isUnknownType first.header.msgType = true := by
                    cases left with
                    | nil => exact absurd rfl hl
                    | cons a l => simpa using hleft
                  have ht : first.header.msgType ∉ [0, 1, 2, 3, 4, 11, 12, 13, 14, 15, 16, 20] := by
                    intro hm
                    revert hu
                    simp only [List.mem_cons, List.not_mem_nil, or_false] at hm
                    rcases hm with e | e | e | e | e | e | e | e | e | e | e | e <;> rw [e] <;> decide
                  have : m = .unknown first.header.msgType := by
                    simp only [List.mem_cons, List.not_mem_nil, or_false, not_or] at ht
                    obtain ⟨h0, h1, h2, h3, h4, h5, h6, h7, h8, h9, h10, h11⟩ := ht
                    unfold parseBody at hb
                    rw [if_neg h0, if_neg h1, if_neg h3, if_neg h2, if_neg h5, if_neg h6, if_neg h7, if_neg h8,
                      if_neg h9, if_neg h10, if_neg h4, if_neg h11] at hb
                    cases hb; rfl
                  rw [this]
                  exact Says.unknown _ ht _

end Verif.Props.MsgOnly12

import Verif.Props.MsgOnly12
import Verif.Props.Msg13
import Verif.Props.MsgDemo
/-!
# DTLS 1.3: only well-formed handshake messages are taken (C59)

The converse of `Verif.Props.Msg13`, as `Verif.Props.MsgOnly12`.
-/
namespace Verif.Props.MsgOnly13
open Verif Verif.Msg Verif.Msg13 Verif.Wire
open Verif.Props.Msg
open Verif.Props.MsgOnly12 (clientHelloBare serverHelloBare bare_eq opt_some)
open Verif.E13 (PEnv Body parseBody)

/-- The cipher suites and extension types an endpoint keeps of those offered. -/
def keptSuites (l : List Nat) : List Nat := l.filter fun s => [0x1301, 0x1302, 0x1303].contains s

def keptExts (l : List (Nat × Bytes)) : List (Nat × Bytes) :=
  l.filter fun e => [43, 10, 13, 51, 14, 44].contains e.1

/-- Length of the hash of a suite, RFC 8446 appendix B.4. -/
def hashOf (suite : Nat) : Nat :=
  if suite = 0x1302 then 48 else if 0x1301 ≤ suite ∧ suite ≤ 0x1305 then 32 else 0

/-- `Says suite u t b m`: under the negotiated suite, the body `b` of a message of type `t` is an encoding
of `m`; `u` tells that hellos without a suite of DTLS 1.3 are let through. A CertificateRequest is taken as
it is. -/
inductive Says (suite : Option Nat) (u : Bool) : UInt8 → Bytes → Body → Prop
  | clientHello (version : Nat) (random sid cookie : Bytes) (suites : List Nat) (cs : Bytes)
      (exts : List (Nat × Bytes)) (h : HelloFits version random sid cookie suites cs exts)
      (h1 : 1 ≤ suites.length) (hs : u = true ∨ 1 ≤ (keptSuites suites).length)
      (hs3 : (keptSuites suites).length ≤ 3) (hc : cs.filter (· == 0) = [0])
      (he : Once [43, 10, 13, 51, 14, 44] exts) :
      Says suite u 1 (clientHello version random sid cookie suites cs exts)
        (.clientHello { version, random, sessionId := sid, cookie, suites := keptSuites suites,
                        compressions := [0], exts := keptExts exts })
  | clientHelloBare (version : Nat) (random sid cookie : Bytes) (suites : List Nat) (cs : Bytes)
      (h : HelloFits version random sid cookie suites cs [])
      (h1 : 1 ≤ suites.length) (hs : u = true ∨ 1 ≤ (keptSuites suites).length)
      (hs3 : (keptSuites suites).length ≤ 3) (hc : cs.filter (· == 0) = [0]) :
      Says suite u 1 (clientHelloBare version random sid cookie suites cs)
        (.clientHello { version, random, sessionId := sid, cookie, suites := keptSuites suites,
                        compressions := [0], exts := [] })
  | serverHello (version : Nat) (random sid : Bytes) (su : Nat) (c : UInt8) (exts : List (Nat × Bytes))
      (hv : version < 65536) (hr : random.length = 32) (hs : sid.length ≤ 32) (hsu : su < 65536)
      (hf : ∀ e ∈ exts, e.1 < 65536 ∧ e.2.length < 65536) (hl : (exts.flatMap extension).length < 65536)
      (he : Once [43, 10, 13, 51, 14, 44] exts) (h5 : (keptExts exts).length ≤ 5) :
      Says suite u 2 (serverHello version random sid su c exts)
        (.serverHello { version, random, sessionId := sid, suite := su, compression := c,
                        exts := if exts = [] then none else some (keptExts exts) })
  | serverHelloBare (version : Nat) (random sid : Bytes) (su : Nat) (c : UInt8)
      (hv : version < 65536) (hr : random.length = 32) (hs : sid.length ≤ 32) (hsu : su < 65536) :
      Says suite u 2 (serverHelloBare version random sid su c)
        (.serverHello { version, random, sessionId := sid, suite := su, compression := c, exts := none })
  | encryptedExtensions (exts : List (Nat × Bytes)) (hf : ∀ e ∈ exts, e.1 < 65536 ∧ e.2.length < 65536)
      (hl : (exts.flatMap extension).length < 65536) (he : Once [43, 10, 13, 51, 14, 44] exts)
      (h5 : (keptExts exts).length ≤ 5) :
      Says suite u 8 (prefixed 2 (exts.flatMap extension)) (.encryptedExtensions (keptExts exts))
  | certificate (ctx : Bytes) (cs : List (Bytes × Bytes)) (hx : ctx.length < 256) (hn : cs.length ≤ 32)
      (hc : ∀ c ∈ cs, c.1.length < 16777216 ∧ c.2.length < 65536)
      (hl : (cs.flatMap fun c => prefixed 3 c.1 ++ prefixed 2 c.2).length < 16777216) :
      Says suite u 11 (prefixed 1 ctx ++ prefixed 3 (cs.flatMap fun c => prefixed 3 c.1 ++ prefixed 2 c.2))
        (.certificate ctx (cs.map (·.1)))
  | certificateRequest (b : Bytes) : Says suite u 13 b (.certificateRequest b)
  | certificateVerify (alg : Nat) (sig : Bytes) (ha : alg < 65536) (hs : sig.length < 65536) :
      Says suite u 15 (num 2 alg ++ prefixed 2 sig) (.certificateVerify alg sig)
  | finished (su : Nat) (hsu : suite = some su) (vd : Bytes) (hl : vd.length = hashOf su) :
      Says suite u 20 vd (.finished vd)
  | keyUpdate (requested : Bool) :
      Says suite u 24 [if requested then 1 else 0] (.keyUpdate requested)
  | unknown (t : UInt8) (ht : t ∉ [1, 2, 8, 11, 13, 15, 20, 24]) (b : Bytes) : Says suite u t b (.unknown t)

/-! ## Inversion of each parser -/

theorem clientExts_inv {i : Bytes} {l : List (Nat × Bytes)} (h : parseClientExts i = .ok [] l) :
    (i = [] ∧ l = []) ∨
      ∃ es : List (Nat × Bytes), i = putExts es ∧ Fits es ∧ (es.flatMap putExt).length < 65536
        ∧ l = known supportedExts es ∧ (l.map (·.1)).Nodup := by
  unfold parseClientExts at h
  split at h
  · cases h; exact .inl ⟨rfl, rfl⟩
  · obtain ⟨r1, d, h1, h⟩ := bind_ok h
    obtain ⟨e1, hlt⟩ := vec_inv h1
    split at h
    · cases h
    · next hr =>
      have hr : r1 = [] := by simpa using hr
      obtain ⟨r3, l3, h3, h⟩ := bind_ok h
      cases h
      obtain ⟨es, ee, hf, el, hn, -⟩ := parseExtData_inv h3
      refine .inr ⟨es, ?_, hf, by rw [← ee]; omega, el, hn⟩
      rw [e1, List.append_nil, putExts, ← ee]

theorem hashOf_eq (suite : Nat) : hashLen suite = hashOf suite := by
  unfold hashLen hashOf
  by_cases h : suite = 0x1302
  · rw [if_pos h, if_pos h]
  · rw [if_neg h, if_neg h]
    have : (suite = 0x1301 ∨ suite = 0x1303 ∨ suite = 0x1304 ∨ suite = 0x1305)
        ↔ (0x1301 ≤ suite ∧ suite ≤ 0x1305) := by omega
    simp only [this]

theorem keptExts_eq : keptExts = known supportedExts := rfl

theorem client_hello_only {suite : Option Nat} {u : Bool} {b : Bytes} {h : E13.ClientHello}
    (hp : parseClientHello u b = .ok [] h) : Says suite u 1 b (.clientHello h) := by
  obtain ⟨r1, hd, h1, hp⟩ := bind_ok hp
  obtain ⟨e1, hv, hr, hs, hc⟩ := parseHead_inv h1
  obtain ⟨r2, len, h2, hp⟩ := bind_ok hp
  obtain ⟨e2, hll⟩ := beNat_inv h2
  split at hp
  · cases hp
  next hlen =>
  obtain ⟨r2', d, h2', hp⟩ := bind_ok hp
  obtain ⟨e2', hdl⟩ := take_ok h2'
  obtain ⟨r3, su, h3, hp⟩ := bind_ok hp
  split at hp
  · cases hp
  · next hr3 =>
    have hr3 : r3 = [] := by simpa using hr3
    subst hr3
    have hx : ∃ xs : List Nat, d = xs.flatMap (beBytes 2) ∧ (∀ x ∈ xs, x < 65536)
        ∧ su = xs.filter (fun s => supportedSuites.contains s) ∧ su.length ≤ 3 ∧ (u = true ∨ 1 ≤ su.length) := by
      cases u with
      | true =>
        rw [if_pos rfl] at h3
        obtain ⟨xs, a, b, c, d⟩ := many0_inv (beBytes 2) (fun v => v < 65536) num2_inv h3
        exact ⟨xs, a, b, c, d, .inl rfl⟩
      | false =>
        rw [if_neg (by simp)] at h3
        obtain ⟨xs, a, b, c, d, e⟩ := many1_inv (beBytes 2) (fun v => v < 65536) num2_inv h3
        exact ⟨xs, a, b, c, d, .inr (List.length_pos_iff.mpr e)⟩
    obtain ⟨xs, ex, hu, hsu, hcap, hne⟩ := hx
    obtain ⟨r4, cs, h4, hp⟩ := bind_ok hp
    obtain ⟨dc, e4, hdc, hcs, hcs0⟩ := parseCompression_inv h4
    obtain ⟨r5, es, h5, hp⟩ := bind_ok hp
    cases hp
    have hdx : len = 2 * xs.length := by rw [← hdl, ex, flat2_length]
    have hxl : xs.length < 32768 := by omega
    have hx1 : 1 ≤ xs.length := by omega
    have hsu' : su = keptSuites xs := hsu
    have hlist : beBytes 2 len ++ d = putList 2 xs := by
      rw [putList, putVec, ← ex, hdl]
    rcases clientExts_inv h5 with ⟨e5, el⟩ | ⟨xe, e5, hf, hfl, el, hn⟩
    · have := Says.clientHelloBare (suite := suite) (u := u) hd.version hd.random hd.sessionId hd.cookie xs dc
        ⟨hv, hr, hs, hc, ⟨hu, hxl⟩, hdc, by simp⟩ hx1 (by rw [← hsu']; exact hne) (by rw [← hsu']; exact hcap)
        (by rw [← hcs, hcs0])
      rw [bare_eq, ← hlist] at this
      rw [e1, e2, e2', e4, e5, hcs0, el, hsu']
      simpa using this
    · have := Says.clientHello (suite := suite) (u := u) hd.version hd.random hd.sessionId hd.cookie xs dc xe
        ⟨hv, hr, hs, hc, ⟨hu, hxl⟩, hdc, ⟨hf, by rw [extension_eq]; exact hfl⟩⟩ hx1
        (by rw [← hsu']; exact hne) (by rw [← hsu']; exact hcap) (by rw [← hcs, hcs0])
        ((once_iff supportedExts xe).mpr (by rw [← el]; exact hn))
      rw [clientHello_eq, ← hlist] at this
      rw [e1, e2, e2', e4, e5, hcs0, hsu', el]
      simpa [keptExts_eq] using this

theorem server_hello_only {suite : Option Nat} {u : Bool} {b : Bytes} {h : E13.ServerHello}
    (hp : parseServerHello b = .ok [] h) : Says suite u 2 b (.serverHello h) := by
  have hp0 := hp
  obtain ⟨r1, v, h1, hp⟩ := bind_ok hp
  obtain ⟨e1, hv⟩ := beNat_inv h1
  obtain ⟨r2, rnd, h2, hp⟩ := bind_ok hp
  obtain ⟨e2, hr⟩ := take_ok h2
  obtain ⟨r3, sid, h3, hp⟩ := bind_ok hp
  obtain ⟨e3, hs, -⟩ := idParse_inv h3
  obtain ⟨r4, su, h4, hp⟩ := bind_ok hp
  obtain ⟨e4, hsu⟩ := beNat_inv h4
  obtain ⟨r5, c, h5, hp⟩ := bind_ok hp
  obtain ⟨e5, hc⟩ := beNat_inv h5
  obtain ⟨r6, es, h6, hp⟩ := bind_ok hp
  cases hp
  have e5' : r4 = [UInt8.ofNat c] ++ r5 := by rw [e5]; simp [beBytes]
  have hb : b = beBytes 2 v ++ rnd ++ putVec 1 sid ++ beBytes 2 su ++ [UInt8.ofNat c] ++ r5 := by
    rw [e1, e2, e3, e4, e5']; simp
  rcases parseServerExts_inv h6 with ⟨e6, rfl⟩ | ⟨e6, rfl⟩ | ⟨xe, hne, e6, hf, hfl, rfl⟩
  · have := Says.serverHelloBare (suite := suite) (u := u) v rnd sid su (UInt8.ofNat c) (by omega) hr hs (by omega)
    simp only [serverHelloBare, num_eq, prefixed_eq] at this
    rw [hb, e6]
    simpa using this
  · have := Says.serverHello (suite := suite) (u := u) v rnd sid su (UInt8.ofNat c) [] (by omega) hr hs (by omega)
      (by simp) (by simp) (by simp [Once]) (by simp [keptExts])
    rw [serverHello_eq] at this
    rw [hb, e6]
    simpa using this
  · have hfe : (xe.flatMap extension).length < 65536 := by rw [extension_eq]; exact hfl
    have hread := Props.Msg13.server_hello_read v rnd sid su (UInt8.ofNat c) xe (by omega) hr hs (by omega) hne hf hfe
    rw [serverHello_eq, ← e6, ← hb, hp0] at hread
    split at hread
    · next hon =>
      have := Says.serverHello (suite := suite) (u := u) v rnd sid su (UInt8.ofNat c) xe (by omega) hr hs (by omega)
        hf hfe hon.1 hon.2
      rw [serverHello_eq, if_neg hne] at this
      rw [hb, e6]
      exact this
    · cases hread

theorem enc_exts_only {suite : Option Nat} {u : Bool} {b : Bytes} {l : List (Nat × Bytes)}
    (hp : parseEncExts b = .ok [] l) : Says suite u 8 b (.encryptedExtensions l) := by
  obtain ⟨r1, d, h1, hp⟩ := bind_ok hp
  obtain ⟨e1, hd⟩ := vec_inv h1
  obtain ⟨r2, es, h2, hp⟩ := bind_ok hp
  cases hp
  obtain ⟨xe, ee, hf, el, hn, hc⟩ := parseExtData_inv h2
  have := Says.encryptedExtensions (suite := suite) (u := u) xe hf (by rw [extension_eq, ← ee]; omega)
    ((once_iff supportedExts xe).mpr (by rw [← el]; exact hn)) (by rw [keptExts_eq, ← el]; exact hc)
  rw [extension_eq, ← ee, prefixed_eq, keptExts_eq, ← el] at this
  rw [e1, List.append_nil]
  exact this

/-- Every entry of the certificate list, with the extensions the parser drops. -/
theorem entries_inv : ∀ (f : Nat) (acc l : List Bytes) (i r : Bytes), i.length ≤ f → acc.length ≤ 32 →
    loop parseCertEntry (pushIf 32 fun _ => true) f acc i = .ok r l →
      ∃ cs : List (Bytes × Bytes), i = cs.flatMap (fun c => putVec 3 c.1 ++ putVec 2 c.2)
        ∧ (∀ c ∈ cs, c.1.length < 16777216 ∧ c.2.length < 65536) ∧ l = acc ++ cs.map (·.1) ∧ l.length ≤ 32 := by
  intro f
  induction f with
  | zero =>
    intro acc l i r hf hacc h
    simp only [loop, PRes.ok.injEq] at h
    exact ⟨[], by simpa using List.length_eq_zero_iff.mp (by omega), by simp, by simp [h.2], by rw [← h.2]; exact hacc⟩
  | succ f ih =>
    intro acc l i r hf hacc h
    unfold loop at h
    split at h
    · next hi =>
      simp only [PRes.ok.injEq] at h
      exact ⟨[], by simpa using hi, by simp, by simp [h.2], by rw [← h.2]; exact hacc⟩
    · obtain ⟨r1, x, h1, h2⟩ := bind_ok h
      obtain ⟨r2, c, p1, p⟩ := bind_ok h1
      obtain ⟨e1, hc⟩ := vec_inv p1
      obtain ⟨r3, es, p2, p⟩ := bind_ok p
      obtain ⟨e2, he⟩ := vec_inv p2
      cases p
      unfold pushIf at h2
      rw [if_pos rfl] at h2
      by_cases hlt : acc.length < 32
      · rw [if_pos hlt] at h2
        dsimp only at h2
        obtain ⟨cs, ei, hx, el, hcap⟩ := ih _ _ _ _ (by
          rw [e1, e2, List.length_append, putVec_length, List.length_append] at hf; omega)
          (by simp; omega) h2
        refine ⟨(x, es) :: cs, by rw [e1, e2, ei]; simp, ?_, ?_, hcap⟩
        · intro y hm
          rcases List.mem_cons.mp hm with rfl | hm
          · exact ⟨by simp only; omega, by simp only; omega⟩
          · exact hx y hm
        · rw [el]; simp
      · rw [if_neg hlt] at h2; cases h2

theorem certificate_only {suite : Option Nat} {u : Bool} {b : Bytes} {x : Bytes × List Bytes}
    (hp : parseCertificate b = .ok [] x) : Says suite u 11 b (.certificate x.1 x.2) := by
  obtain ⟨r0, ctx, h0, hp⟩ := bind_ok hp
  obtain ⟨e0, hx⟩ := vec_inv h0
  obtain ⟨r1, d, h1, hp⟩ := bind_ok hp
  obtain ⟨e1, hd⟩ := vec_inv h1
  obtain ⟨r2, l, h2, hp⟩ := bind_ok hp
  cases hp
  obtain ⟨cs, ec, hc, el, hcap⟩ := entries_inv _ _ _ _ _ (Nat.le_refl _) (by simp) h2
  have el : l = cs.map (·.1) := by simpa using el
  subst el
  have hf : (fun c : Bytes × Bytes => prefixed 3 c.1 ++ prefixed 2 c.2) = fun c => putVec 3 c.1 ++ putVec 2 c.2 := by
    funext c; rw [prefixed_eq, prefixed_eq]
  have := Says.certificate (suite := suite) (u := u) ctx cs (by omega) (by simpa using hcap) hc
    (by rw [hf, ← ec]; omega)
  rw [hf, ← ec, prefixed_eq, prefixed_eq] at this
  rw [e0, e1, List.append_nil]
  exact this

/-- Whatever body the parser of its type uses up to the last byte is an encoding of the message it returns. -/
theorem parsed_only (env : PEnv) (mtu : Nat) (cert : Bytes) (u : Bool) (t : UInt8) (suite : Option Nat) (b : Bytes)
    (m : Body) (h : parseBody (codec env mtu cert).toEnv u t suite b = some ([], m)) : Says suite u t b m := by
  unfold parseBody at h
  have map_some : ∀ {α : Type} {o : Option (Bytes × α)} {f : α → Body},
      (o.map fun (r, x) => (r, f x)) = some ([], m) → ∃ x, o = some ([], x) ∧ m = f x := by
    intro α o f h
    cases o with
    | none => cases h
    | some p =>
      simp only [Option.map_some, Option.some.injEq, Prod.mk.injEq] at h
      exact ⟨p.2, by rw [← h.1], h.2.symm⟩
  by_cases h1 : t = E13.mtClientHello
  · rw [if_pos h1] at h; subst h1
    obtain ⟨x, hx, rfl⟩ := map_some h
    exact client_hello_only (opt_some hx)
  rw [if_neg h1] at h
  by_cases h2 : t = E13.mtServerHello
  · rw [if_pos h2] at h; subst h2
    obtain ⟨x, hx, rfl⟩ := map_some h
    exact server_hello_only (opt_some hx)
  rw [if_neg h2] at h
  by_cases h3 : t = E13.mtEncryptedExtensions
  · rw [if_pos h3] at h; subst h3
    obtain ⟨x, hx, rfl⟩ := map_some h
    exact enc_exts_only (opt_some hx)
  rw [if_neg h3] at h
  by_cases h4 : t = E13.mtCertificate
  · rw [if_pos h4] at h; subst h4
    obtain ⟨x, hx, rfl⟩ := map_some (f := fun x : Bytes × List Bytes => .certificate x.1 x.2) h
    exact certificate_only (opt_some hx)
  rw [if_neg h4] at h
  by_cases h5 : t = E13.mtCertificateRequest
  · rw [if_pos h5] at h; subst h5; cases h; exact Says.certificateRequest b
  rw [if_neg h5] at h
  by_cases h6 : t = E13.mtCertificateVerify
  · rw [if_pos h6] at h; subst h6
    obtain ⟨x, hx, rfl⟩ := map_some (f := fun x : Nat × Bytes => .certificateVerify x.1 x.2) h
    obtain ⟨e, ha, hs⟩ := parseSigned_inv (opt_some hx)
    have := Says.certificateVerify (suite := suite) (u := u) x.1 x.2 ha hs
    rw [num_eq, prefixed_eq] at this
    rw [e, List.append_nil]
    exact this
  rw [if_neg h6] at h
  by_cases h7 : t = E13.mtFinished
  · rw [if_pos h7] at h; subst h7
    cases suite with
    | none => cases h
    | some su =>
      obtain ⟨x, hx, rfl⟩ := map_some h
      have hx : take (hashLen su) b = .ok [] x := opt_some hx
      obtain ⟨e, hl⟩ := take_ok hx
      rw [List.append_nil] at e
      subst e
      exact Says.finished su rfl b (by rw [hl, hashOf_eq])
  rw [if_neg h7] at h
  by_cases h8 : t = E13.mtKeyUpdate
  · rw [if_pos h8] at h; subst h8
    split at h
    · cases h; exact Says.keyUpdate false
    · cases h; exact Says.keyUpdate true
    · cases h
  rw [if_neg h8] at h
  cases h
  refine Says.unknown t ?_ []
  simp only [List.mem_cons, List.not_mem_nil, or_false, not_or]
  exact ⟨h1, h2, h3, h4, h5, h6, h7, h8⟩

/-- So whatever the endpoint takes from the queue for a message, of any type and in any state, is logged with
its body, and that body is an encoding of the message handed to the state machine. Partial: the body of a
CertificateRequest is not checked, see `request_unchecked`. -/
theorem taken_only_partial (env : PEnv) (mtu : Nat) (cert : Bytes) (u tr : Bool) (wanted : UInt8) (s s' : E13.Eng) (m : Body)
    (h : E13.nextHandshakeWith (codec env mtu cert).toEnv u tr wanted s = (.ok (some m), s')) :
    ∃ seq t b, s'.log = .taken seq t b :: s.log ∧ Says s.suite u t b m := by
  unfold E13.nextHandshakeWith at h
  split at h
  · cases h
  · split at h
    · cases h
    · next first rest hv =>
      unfold E13.defragment at h
      dsimp only at h
      split at h
      · cases h
      · split at h
        · cases h
        · split at h
          · cases h
          · next left b hb =>
            split at h
            · cases h
            · next hleft =>
              cases h
              refine ⟨_, _, _, rfl, ?_⟩
              by_cases hl : left = []
              · subst hl
                exact parsed_only env mtu cert _ _ _ _ _ hb
              · have hu : E13.isUnknownType first.header.msgType = true := by
                  cases left with
                  | nil => exact absurd rfl hl
                  | cons a l => simpa using hleft
                have ht : first.header.msgType ∉ [1, 2, 8, 11, 13, 15, 20, 24] := by
                  intro hm
                  revert hu
                  simp only [List.mem_cons, List.not_mem_nil, or_false] at hm
                  rcases hm with e | e | e | e | e | e | e | e <;> rw [e] <;> decide
                have : m = .unknown first.header.msgType := by
                  simp only [List.mem_cons, List.not_mem_nil, or_false, not_or] at ht
                  obtain ⟨h1, h2, h3, h4, h5, h6, h7, h8⟩ := ht
                  unfold parseBody at hb
                  rw [if_neg h1, if_neg h2, if_neg h3, if_neg h4, if_neg h5, if_neg h6, if_neg h7, if_neg h8] at hb
                  cases hb; rfl
                rw [this]
                exact Says.unknown _ ht _

/-- What the client makes of a CertificateRequest followed by anything at all: the context, and no error. -/
theorem request_junk (ctx exts junk : Bytes) (hc : ctx.length < 256) (he : exts.length < 65536) :
    E13.C13.requestContext (prefixed 1 ctx ++ prefixed 2 exts ++ junk)
      = some (if ctx = [] then none else some ctx) := by
  have h1 : prefixed 1 ctx = UInt8.ofNat ctx.length :: ctx := by simp [prefixed, num]
  have hn : (UInt8.ofNat ctx.length).toNat = ctx.length := by simp; omega
  rw [h1, List.append_assoc, List.cons_append]
  simp only [E13.C13.requestContext]
  rw [hn, if_neg (by simp), List.drop_left, List.take_left, prefixed_eq]
  have hok : E13.C13.requestExtsOk (putVec 2 exts ++ junk) = true := by
    unfold E13.C13.requestExtsOk putVec
    rw [if_neg (by simp)]
    have : List.take 2 (beBytes 2 exts.length ++ exts ++ junk) = beBytes 2 exts.length := by
      rw [List.append_assoc, List.take_append_of_le_length (by simp)]
      exact List.take_of_length_le (by simp)
    rw [this, ofBe_beBytes_of_lt (by omega)]
    simp only [List.length_append, beBytes_length, decide_eq_true_eq]
    omega
  rw [if_pos hok]
  congr 1
  by_cases h0 : ctx = []
  · subst h0; rfl
  · have hpos := List.length_pos_iff.mpr h0
    rw [if_neg h0, if_neg]
    intro hz
    have := congrArg UInt8.toNat hz
    rw [hn] at this
    simp at this
    exact h0 this

/-- The server of the demonstration, sending the given bytes as CertificateRequest. -/
def requesting (b : Bytes) : PEnv := { MsgDemo.full13 with certRequestBody := b }

/-- A CertificateRequest that is empty, one with a single byte and one with bytes after its end: the client
takes each of them, answers with its certificate, and the handshake completes. -/
theorem request_unchecked : ∀ b ∈ [[], [0], [0, 0, 0, 9, 9, 9]],
    (E12.outputs (E13.Demo.clientRun (requesting b) []).1).count .connected = 1
    ∧ (E12.outputs (E13.Demo.serverRun (requesting b) []).1).count .connected = 1
    ∧ (E13.Demo.serverRun (requesting b) []).2.peerCerts = [[77, 78]] := by decide +kernel

end Verif.Props.MsgOnly13

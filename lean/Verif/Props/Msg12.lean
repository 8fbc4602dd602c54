import Verif.Props.Msg
import Verif.Model.Msg12
import Verif.Model.Server12
import Verif.Model.Client12
/-!
# DTLS 1.2: what one side writes in a handshake message is what the other side reads (C57, C58)
-/
namespace Verif.Props.Msg12
open Verif Verif.Msg Verif.Msg12 Verif.Wire
open Verif.Props.Msg
open Verif.E12 (PEnv parseBody)

/-! The parsers `Body::parse` chooses. -/

theorem body_kx (env : E12.Env) (s : Nat) (b : Bytes) :
    parseBody env 12 (some s) b = (env.parseServerKx s b).map fun (r, x) => (r, .serverKeyExchange x) := rfl

theorem body_request (env : E12.Env) (s : Option Nat) (b : Bytes) :
    parseBody env 13 s b = (env.parseCertificateRequest b).map fun (r, x) => (r, .certificateRequest x) := rfl

theorem body_ckx (env : E12.Env) (s : Nat) (b : Bytes) :
    parseBody env 16 (some s) b = (env.parseClientKx s b).map fun (r, x) => (r, .clientKeyExchange x) := rfl

theorem body_finished (env : E12.Env) (s : Nat) (b : Bytes) :
    parseBody env 20 (some s) b = (env.parseFinished s b).map fun (r, x) => (r, .finished x) := rfl

/-! ## ClientHello with entries of any kind (C58) -/

theorem clientExts_put (es : List (Nat × Bytes)) (h : Fits es) (hl : (es.flatMap putExt).length < 65536) :
    parseClientExts (putExts es) =
      if ((known supportedExts es).map (·.1)).Nodup then .ok [] (known supportedExts es) else .failure := by
  unfold parseClientExts putExts putVec
  rw [if_neg (by simp [beBytes])]
  rw [← List.append_nil (beBytes 2 _ ++ _), List.append_assoc, beNat_beBytes _ _ _ (by omega)]
  simp only [PRes.bind_ok']
  by_cases h0 : (es.flatMap putExt).length = 0
  · have hes : es = [] := by
      cases es with
      | nil => rfl
      | cons e es => simp [putExt, putVec_length] at h0
    subst hes
    simp [known]
  · rw [if_neg h0, take_append _ _ _ rfl]
    simp only [PRes.bind_ok']
    rw [parseExtData_items 8 supportedExts es h]
    by_cases hn : ((known supportedExts es).map (·.1)).Nodup
    · rw [if_pos ⟨hn, known_le hn⟩, if_pos hn]; rfl
    · rw [if_neg (fun x => hn x.1), if_neg hn]; rfl

/-- A server reads a ClientHello with any suites, compression methods and extensions, known or not, as
follows: of the suites it sees the four it supports, in the client's order; of the extensions those of the
eight types it supports, in order; and it refuses the message exactly when none of its suites or more than
four entries for them are offered, when the null compression is not listed exactly once, or when an
extension of one of the eight types occurs twice. -/
theorem client_hello_read (version : Nat) (random sid cookie : Bytes) (suites : List Nat) (cs : Bytes)
    (exts : List (Nat × Bytes)) (h : HelloFits version random sid cookie suites cs exts) :
    opt (parseClientHello (clientHello version random sid cookie suites cs exts)) =
      if suites.filter (fun s => [0xC02C, 0xC02B, 0xCCA9, 0xC0A8].contains s) ≠ []
          ∧ (suites.filter (fun s => [0xC02C, 0xC02B, 0xCCA9, 0xC0A8].contains s)).length ≤ 4
          ∧ (cs.filter (· == 0)).length = 1
          ∧ Once [10, 11, 13, 14, 22, 23, 0xFF01, 35] exts
      then some ([], { version, random, sessionId := sid, cookie,
                       suites := suites.filter (fun s => [0xC02C, 0xC02B, 0xCCA9, 0xC0A8].contains s),
                       compressions := [0],
                       exts := exts.filter fun e => [10, 11, 13, 14, 22, 23, 0xFF01, 35].contains e.1 })
      else none := by
  rw [clientHello_eq]
  simp only [List.append_assoc]
  unfold parseClientHello
  rw [parseHead_put _ _ _ _ _ h.version h.random h.sid h.cookie]
  simp only [PRes.bind_ok']
  rw [putList, vec_putVec 2 _ _ (by rw [flat2_length]; have := h.suites.2; omega)]
  simp only [PRes.bind_ok']
  rw [many1_items 4 (beNat 2) (beBytes 2) _ suites
    (fun s hs r => beNat_beBytes 2 s r (by have := h.suites.1 s hs; omega)) (fun s _ => be2_ne_nil s)]
  have hS : (fun s => supportedSuites.contains s) = (fun s : Nat => [0xC02C, 0xC02B, 0xCCA9, 0xC0A8].contains s) := rfl
  rw [hS]
  generalize hk : suites.filter (fun s : Nat => [0xC02C, 0xC02B, 0xCCA9, 0xC0A8].contains s) = kept
  by_cases h1 : kept ≠ [] ∧ kept.length ≤ 4
  · rw [if_pos h1]
    simp only [PRes.bind_ok', List.isEmpty_nil, Bool.not_true, Bool.false_eq_true, if_false]
    rw [parseCompression_put cs _ h.compressions]
    have hone : (cs.filter (· == 0) ≠ [] ∧ (cs.filter (· == 0)).length ≤ 1) ↔ (cs.filter (· == 0)).length = 1 := by
      constructor
      · rintro ⟨a, b⟩
        have := List.length_pos_iff.mpr a
        omega
      · intro e
        exact ⟨List.length_pos_iff.mp (by omega), by omega⟩
    by_cases h2 : (cs.filter (· == 0)).length = 1
    · rw [if_pos (hone.mpr h2)]
      simp only [PRes.bind_ok']
      have hc0 : cs.filter (· == 0) = [0] := by
        obtain ⟨x, hx⟩ := List.length_eq_one_iff.mp h2
        have : x ∈ cs.filter (· == 0) := by rw [hx]; simp
        have := (List.mem_filter.mp this).2
        rw [hx]
        simpa using this
      have hf : Fits exts := h.exts.1
      have hfl : (exts.flatMap putExt).length < 65536 := by
        have := h.exts.2; rwa [extension_eq] at this
      rw [clientExts_put exts hf hfl, hc0]
      by_cases h3 : Once [10, 11, 13, 14, 22, 23, 0xFF01, 35] exts
      · have hn := (once_iff supportedExts exts).mp h3
        rw [if_pos hn, if_pos ⟨h1.1, h1.2, rfl, h3⟩]
        rfl
      · have hn : ¬ ((known supportedExts exts).map (·.1)).Nodup := fun x =>
          h3 ((once_iff supportedExts exts).mpr x)
        rw [if_neg hn, if_neg (fun x => h3 x.2.2.2)]
        rfl
    · rw [if_neg (fun x => h2 (hone.mp x)), if_neg (fun x => h2 x.2.2.1)]
      rfl
  · rw [if_neg h1, if_neg (fun x => h1 ⟨x.1, x.2.1⟩)]
    rfl

/-- So entries the server does not know make no difference: two hellos that agree in the suites, compression
methods and extensions it supports are read alike. -/
theorem unknown_ignored (version : Nat) (random sid cookie : Bytes) (suites suites' : List Nat) (cs cs' : Bytes)
    (exts exts' : List (Nat × Bytes)) (h : HelloFits version random sid cookie suites cs exts)
    (h' : HelloFits version random sid cookie suites' cs' exts')
    (hs : suites.filter (fun s => [0xC02C, 0xC02B, 0xCCA9, 0xC0A8].contains s)
      = suites'.filter (fun s => [0xC02C, 0xC02B, 0xCCA9, 0xC0A8].contains s))
    (hc : cs.filter (· == 0) = cs'.filter (· == 0))
    (he : exts.filter (fun e => [10, 11, 13, 14, 22, 23, 0xFF01, 35].contains e.1)
      = exts'.filter (fun e => [10, 11, 13, 14, 22, 23, 0xFF01, 35].contains e.1)) :
    opt (parseClientHello (clientHello version random sid cookie suites cs exts))
      = opt (parseClientHello (clientHello version random sid cookie suites' cs' exts')) := by
  rw [client_hello_read _ _ _ _ _ _ _ h, client_hello_read _ _ _ _ _ _ _ h', hs, hc, he]
  have ho : Once [10, 11, 13, 14, 22, 23, 0xFF01, 35] exts ↔ Once [10, 11, 13, 14, 22, 23, 0xFF01, 35] exts' := by
    rw [once_iff, once_iff, known, known, he]
  simp only [ho]

/-- A hello with unknown suites, an unknown compression method and unknown extensions among known ones. -/
example : HelloFits 0xFEFD (List.replicate 32 7) [] [1, 2] [0x1301, 0xC02B, 0xFFFF] [1, 0]
    [(43, [1]), (23, []), (0xABCD, [9, 9])] := by
  constructor <;> decide

/-- It is read: one suite and one extension remain. -/
example : opt (parseClientHello (clientHello 0xFEFD (List.replicate 32 7) [] [1, 2] [0x1301, 0xC02B, 0xFFFF]
    [1, 0] [(43, [1]), (23, []), (0xABCD, [9, 9])])) =
    some ([], { version := 0xFEFD, random := List.replicate 32 7, sessionId := [], cookie := [1, 2],
                suites := [0xC02B], compressions := [0], exts := [(23, [])] }) := by decide +kernel

/-- Five entries for a supported suite make the hello unreadable, and so does naming the null compression
twice. -/
theorem repeats_refused :
    opt (parseClientHello (clientHello 0xFEFD (List.replicate 32 7) [] [] (List.replicate 5 0xC02B) [0] [])) = none
    ∧ opt (parseClientHello (clientHello 0xFEFD (List.replicate 32 7) [] [] [0xC02B] [0, 0] [])) = none := by
  decide +kernel

/-! ## The ClientHello of the client (C57) -/

/-- The layout of what `ClientHello::serialize` writes. -/
theorem client_hello_layout (h : E12.ClientHello) (he : h.exts ≠ []) :
    putClientHello h = clientHello h.version h.random h.sessionId h.cookie h.suites h.compressions h.exts := by
  rw [clientHello_eq, putClientHello, if_neg (by simpa using he)]

theorem putList_length (n : Nat) (l : List Nat) : (putList n l).length = n + 2 * l.length := by
  rw [putList, putVec_length, flat2_length]

theorem clientExts_length (b : Bool) (groups : List Nat) (hg : groups.length ≤ 4) :
    ((clientExts b groups).flatMap putExt).length < 65536 := by
  cases b <;> simp [clientExts, putExt, putVec_length, putList_length, putUseSrtp, supportedSigs, defaultProfiles] <;> omega

theorem clientExts_fits (b : Bool) (groups : List Nat) (hg : groups.length ≤ 4) : Fits (clientExts b groups) := by
  intro e he
  cases b <;> simp [clientExts] at he
  · rcases he with rfl | rfl | rfl <;>
      simp [putVec_length, putList_length, putUseSrtp, supportedSigs, defaultProfiles]
  · rcases he with rfl | rfl | rfl | rfl | rfl <;>
      simp [putVec_length, putList_length, putUseSrtp, supportedSigs, defaultProfiles] <;> omega

theorem clientExts_known (b : Bool) (groups : List Nat) : known supportedExts (clientExts b groups) = clientExts b groups := by
  cases b <;> rfl

theorem filter_self {l : List Nat} {p : Nat → Bool} (h : ∀ x ∈ l, p x = true) : l.filter p = l :=
  List.filter_eq_self.mpr h

theorem codec_sigs (env : PEnv) (ecdh : Bool) (cert b : Bytes) :
    (codec env ecdh cert).parseSigAlgs b = val (parseSigAlgs b) := rfl

theorem codec_srtp (env : PEnv) (ecdh : Bool) (cert b : Bytes) :
    (codec env ecdh cert).parseUseSrtp b = val (parseUseSrtp b) := rfl

theorem codec_request (env : PEnv) (ecdh : Bool) (cert : Bytes) :
    (codec env ecdh cert).toEnv.parseCertificateRequest =
      fun b => (opt (parseCertReq b)).map fun (r, c) => (r, c.sigs.map fun s => UInt8.ofNat (s / 256)) := rfl

theorem codec_request_body (env : PEnv) (ecdh : Bool) (cert : Bytes) (sigs : List Nat) :
    (codec env ecdh cert).certRequestBody sigs = putCertReq (certRequest sigs) := rfl

theorem sigs_default : val (parseSigAlgs (putList 2 supportedSigs)) = some [0x0403, 0x0503, 0x0401, 0x0501] := by
  decide +kernel

theorem srtp_default : val (parseUseSrtp (putUseSrtp defaultProfiles)) = some [8, 7, 1] := by decide +kernel

/-- What a client sends as ClientHello is what the server reads: version, random, session id, cookie, the
suites the client may use, no compression, and the extensions with the groups of the configuration, the
signature schemes and SRTP profiles of the implementation. Nothing is left over. -/
theorem client_hello_sent (env : PEnv) (ecdh : Bool) (cert : Bytes) (s : Option Nat) (random cookie sid : Bytes)
    (hr : random.length = 32) (hc : cookie.length ≤ 255) (hs : sid.length ≤ 32)
    (ha : ∀ x ∈ env.allowed, x ∈ [0xC02C, 0xC02B, 0xCCA9, 0xC0A8]) (hn : env.allowed.filter env.compatible ≠ [])
    (hg : ∀ g ∈ env.groups, g ∈ [0x001D, 0x0017, 0x0018, 0x0019]) (hgl : env.groups.length ≤ 4) :
    ∃ h, parseBody (codec env ecdh cert).toEnv 1 s ((codec env ecdh cert).clientHelloBody random cookie sid)
        = some ([], .clientHello h)
      ∧ h.version = 0xFEFD ∧ h.random = random ∧ h.sessionId = sid ∧ h.cookie = cookie
      ∧ h.suites = (env.allowed.filter env.compatible).take 4 ∧ h.compressions = [0]
      ∧ h.exts.map (·.1) = (if ecdh then [10, 11] else []) ++ [13, 14, 23]
      ∧ (∀ d, (10, d) ∈ h.exts → (codec env ecdh cert).parseGroups d = some env.groups)
      ∧ (∀ d, (11, d) ∈ h.exts → (codec env ecdh cert).parsePointFormats d = some ())
      ∧ (∀ d, (13, d) ∈ h.exts → (codec env ecdh cert).parseSigAlgs d = some [0x0403, 0x0503, 0x0401, 0x0501])
      ∧ (∀ d, (14, d) ∈ h.exts → (codec env ecdh cert).parseUseSrtp d = some [8, 7, 1]) := by
  have hkeep : ∀ x ∈ (env.allowed.filter env.compatible).take 4,
      [0xC02C, 0xC02B, 0xCCA9, 0xC0A8].contains x = true := by
    intro x hx
    have := ha x (List.mem_filter.mp (List.mem_of_mem_take hx)).1
    simpa using this
  have hne : (env.allowed.filter env.compatible).take 4 ≠ [] := by
    cases h : env.allowed.filter env.compatible with
    | nil => exact absurd h hn
    | cons a l => simp
  have hlen : ((env.allowed.filter env.compatible).take 4).length ≤ 4 := by
    rw [List.length_take]; omega
  have hce : clientExts ecdh env.groups ≠ [] := by cases ecdh <;> simp [clientExts]
  have hread := client_hello_read 0xFEFD random sid cookie ((env.allowed.filter env.compatible).take 4) [0]
    (clientExts ecdh env.groups)
    { version := by omega, random := hr, sid := hs, cookie := hc,
      suites := ⟨fun x hx => by
        have := ha x (List.mem_filter.mp (List.mem_of_mem_take hx)).1
        simp at this; omega, by omega⟩,
      compressions := by simp,
      exts := ⟨clientExts_fits ecdh env.groups hgl, by
        rw [extension_eq]; exact clientExts_length ecdh env.groups hgl⟩ }
  rw [filter_self hkeep] at hread
  rw [if_pos ⟨hne, hlen, by decide, (once_iff supportedExts _).mpr (by rw [clientExts_known]; cases ecdh <;> simp [clientExts])⟩] at hread
  have hbody : (codec env ecdh cert).clientHelloBody random cookie sid
      = clientHello 0xFEFD random sid cookie ((env.allowed.filter env.compatible).take 4) [0]
        (clientExts ecdh env.groups) := client_hello_layout (Msg12.clientHello env ecdh random cookie sid) hce
  have hparse : (codec env ecdh cert).parseClientHello = fun b => opt (parseClientHello b) := rfl
  refine ⟨⟨0xFEFD, random, sid, cookie, (env.allowed.filter env.compatible).take 4, [0],
    known supportedExts (clientExts ecdh env.groups)⟩, ?_, rfl, rfl, rfl, rfl, rfl, rfl, ?_, ?_, ?_, ?_, ?_⟩
  · rw [hbody]
    show ((codec env ecdh cert).parseClientHello _).map _ = _
    rw [hparse]
    show (opt _).map _ = _
    rw [hread]
    rfl
  · show (known supportedExts (clientExts ecdh env.groups)).map (·.1) = _
    rw [clientExts_known]
    cases ecdh <;> rfl
  · intro d hd
    have hd : (10, d) ∈ known supportedExts (clientExts ecdh env.groups) := hd
    rw [clientExts_known] at hd
    have : d = putList 2 env.groups := by cases ecdh <;> simp [clientExts] at hd; exact hd
    rw [this]
    show val (parseGroups _) = _
    unfold parseGroups
    rw [listExt_putList 2 4 _ _ _ (fun g h => by have := hg g h; simp at this; omega) (by omega) (by simp)]
    have hf : env.groups.filter (fun g => supportedGroups.contains g) = env.groups :=
      filter_self fun g h => by have := hg g h; simp at this; simpa [supportedGroups] using this
    rw [hf, if_pos hgl]
    rfl
  · intro d hd
    have hd : (11, d) ∈ known supportedExts (clientExts ecdh env.groups) := hd
    rw [clientExts_known] at hd
    have : d = putVec 1 [0] := by cases ecdh <;> simp [clientExts] at hd; exact hd
    rw [this]
    rfl
  · intro d hd
    have hd : (13, d) ∈ known supportedExts (clientExts ecdh env.groups) := hd
    rw [clientExts_known] at hd
    have : d = putList 2 supportedSigs := by cases ecdh <;> simp [clientExts] at hd <;> exact hd
    rw [this]
    rw [codec_sigs, sigs_default]
  · intro d hd
    have hd : (14, d) ∈ known supportedExts (clientExts ecdh env.groups) := hd
    rw [clientExts_known] at hd
    have : d = putUseSrtp defaultProfiles := by cases ecdh <;> simp [clientExts] at hd <;> exact hd
    rw [this]
    rw [codec_srtp, srtp_default]

/-! ## The extensions of a ClientHello with entries of any kind (C58) -/

/-- Groups: the four supported ones, in the client's order; more than four entries for them are refused. -/
theorem groups_read (l : List Nat) (hu : ∀ g ∈ l, g < 65536) (hl : l.length < 32768) :
    val (parseGroups (prefixed 2 (l.flatMap (num 2)))) =
      if (l.filter fun g => [0x001D, 0x0017, 0x0018, 0x0019].contains g).length ≤ 4
      then some (l.filter fun g => [0x001D, 0x0017, 0x0018, 0x0019].contains g) else none := by
  have h : (num 2 : Nat → Bytes) = beBytes 2 := by funext v; exact num_eq 2 v
  rw [prefixed_eq, h]
  show val (parseGroups (putList 2 l)) = _
  unfold parseGroups
  rw [listExt_putList 2 4 _ _ _ hu (by omega) (by simp)]
  show val (if (l.filter fun g => [0x001D, 0x0017, 0x0018, 0x0019].contains g).length ≤ 4 then _ else _) = _
  split <;> rfl

/-- Signature schemes likewise; the list must not be empty. -/
theorem sigs_read (l : List Nat) (hu : ∀ g ∈ l, g < 65536) (hl : l.length < 32768) (hn : l ≠ []) :
    val (parseSigAlgs (prefixed 2 (l.flatMap (num 2)))) =
      if (l.filter fun g => [0x0403, 0x0503, 0x0401, 0x0501].contains g).length ≤ 4
      then some (l.filter fun g => [0x0403, 0x0503, 0x0401, 0x0501].contains g) else none := by
  have h : (num 2 : Nat → Bytes) = beBytes 2 := by funext v; exact num_eq 2 v
  have hp := List.length_pos_iff.mpr hn
  rw [prefixed_eq, h]
  show val (parseSigAlgs (putList 2 l)) = _
  unfold parseSigAlgs
  rw [listExt_putList 2 4 _ _ _ hu (by omega) (by simp; omega)]
  show val (if (l.filter fun g => [0x0403, 0x0503, 0x0401, 0x0501].contains g).length ≤ 4 then _ else _) = _
  split <;> rfl

/-- SRTP profiles likewise, whatever the MKI. -/
theorem srtp_read (l : List Nat) (mki : Bytes) (hu : ∀ g ∈ l, g < 65536) (hl : l.length < 32768)
    (hm : mki.length < 256) :
    val (parseUseSrtp (prefixed 2 (l.flatMap (num 2)) ++ prefixed 1 mki)) =
      if (l.filter fun g => [1, 7, 8].contains g).length ≤ 3
      then some (l.filter fun g => [1, 7, 8].contains g) else none := by
  have h : (num 2 : Nat → Bytes) = beBytes 2 := by funext v; exact num_eq 2 v
  rw [prefixed_eq, prefixed_eq, h]
  unfold parseUseSrtp
  rw [vec_putVec 2 _ _ (by rw [flat2_length]; omega)]
  simp only [PRes.bind_ok']
  rw [profilesLoop_items l hu _ [] (Nat.le_refl _) (by simp)]
  simp only [List.nil_append]
  show val (PRes.bind (if (l.filter fun g => [1, 7, 8].contains g).length ≤ 3 then _ else _) _) = _
  split
  · simp only [PRes.bind_ok']
    rw [← List.append_nil (putVec 1 mki), vec_putVec 1 _ _ (by omega)]
    rfl
  · rfl

/-! ## ServerHello -/

/-- A client reads a ServerHello with any extensions as follows: of the extensions it sees those of the
eight types it supports; it refuses the message exactly when one of them occurs twice. -/
theorem server_hello_read (version : Nat) (random sid : Bytes) (suite : Nat) (c : UInt8)
    (exts : List (Nat × Bytes)) (hv : version < 65536) (hr : random.length = 32) (hs : sid.length ≤ 32)
    (hsu : suite < 65536) (hne : exts ≠ []) (hf : ∀ e ∈ exts, e.1 < 65536 ∧ e.2.length < 65536)
    (hl : (exts.flatMap extension).length < 65536) :
    opt (parseServerHello (serverHello version random sid suite c exts)) =
      if Once [10, 11, 13, 14, 22, 23, 0xFF01, 35] exts
      then some ([], { version, random, sessionId := sid, suite, compression := c,
                       exts := some (exts.filter fun e => [10, 11, 13, 14, 22, 23, 0xFF01, 35].contains e.1) })
      else none := by
  rw [extension_eq] at hl
  rw [serverHello_eq]
  simp only [List.append_assoc]
  unfold parseServerHello
  rw [beNat_beBytes _ _ _ (by omega)]
  simp only [PRes.bind_ok']
  rw [take_append _ _ _ hr]
  simp only [PRes.bind_ok']
  rw [idParse_putVec 32 _ _ hs (by omega)]
  simp only [PRes.bind_ok']
  rw [beNat_beBytes _ _ _ (by omega)]
  simp only [PRes.bind_ok']
  rw [List.singleton_append, beNat_one_cons]
  simp only [PRes.bind_ok']
  rw [parseServerExts_put 8 supportedExts exts hf hl hne]
  by_cases h3 : Once [10, 11, 13, 14, 22, 23, 0xFF01, 35] exts
  · have hn := (once_iff supportedExts exts).mp h3
    rw [if_pos ⟨hn, known_le hn⟩, if_pos h3]
    simp only [PRes.bind_ok', opt, UInt8.ofNat_toNat]
    rfl
  · have hn : ¬ ((known supportedExts exts).map (·.1)).Nodup := fun x =>
      h3 ((once_iff supportedExts exts).mpr x)
    rw [if_neg (fun x => hn x.1), if_neg h3]
    rfl

/-- What a server sends as ServerHello is what the client reads: version, random, session id, suite, no
compression, the SRTP profile chosen, extended master secret and empty renegotiation info. -/
theorem server_hello_sent (env : PEnv) (ecdh : Bool) (cert : Bytes) (s : Option Nat) (random sid : Bytes)
    (suite : Nat) (srtp : Option Nat) (hr : random.length = 32) (hs : sid.length ≤ 32) (hsu : suite < 65536)
    (hp : ∀ p, srtp = some p → p ∈ [1, 7, 8]) :
    ∃ h, parseBody (codec env ecdh cert).toEnv 2 s ((codec env ecdh cert).serverHelloBody random sid suite srtp)
        = some ([], .serverHello h)
      ∧ h.version = 0xFEFD ∧ h.random = random ∧ h.sessionId = sid ∧ h.suite = suite ∧ h.compression = 0
      ∧ ∃ es, h.exts = some es ∧ es.map (·.1) = (match srtp with | some _ => [14] | none => []) ++ [23, 0xFF01]
        ∧ (∀ d, (14, d) ∈ es → ∃ p, srtp = some p ∧ (codec env ecdh cert).parseUseSrtp d = some [p])
        ∧ (23, []) ∈ es ∧ (0xFF01, [0]) ∈ es := by
  generalize hes : ((match srtp with | some p => [(14, putUseSrtp [p])] | none => []) ++ [(23, []), (0xFF01, [0])]
    : List (Nat × Bytes)) = es
  have hfl : Fits es ∧ (es.flatMap putExt).length < 65536 ∧ es ≠ [] ∧ known supportedExts es = es
      ∧ (es.map (·.1)).Nodup ∧ es.map (·.1) = (match srtp with | some _ => [14] | none => []) ++ [23, 0xFF01] := by
    subst hes
    cases srtp with
    | none =>
      refine ⟨?_, by decide, by decide, by decide, by decide, rfl⟩
      unfold Fits; decide
    | some p =>
      refine ⟨?_, by simp [putExt, putVec_length, putUseSrtp, putList_length], by simp, rfl, by simp, rfl⟩
      intro e he
      simp at he
      rcases he with rfl | rfl | rfl <;> simp [putUseSrtp, putList_length, putVec_length]
  obtain ⟨h1, h2, h3, h4, h5, h6⟩ := hfl
  have hread := server_hello_read 0xFEFD random sid suite 0 es (by omega) hr hs hsu h3 h1 (by rw [extension_eq]; exact h2)
  rw [if_pos ((once_iff [10, 11, 13, 14, 22, 23, 0xFF01, 35] es).mpr (by
    have h4 : known [10, 11, 13, 14, 22, 23, 0xFF01, 35] es = es := h4
    rw [h4]; exact h5))] at hread
  have h4' : es.filter (fun e => [10, 11, 13, 14, 22, 23, 0xFF01, 35].contains e.1) = es := h4
  rw [h4'] at hread
  have hbody : (codec env ecdh cert).serverHelloBody random sid suite srtp
      = serverHello 0xFEFD random sid suite 0 es := by
    rw [serverHello_eq, ← hes]; rfl
  refine ⟨⟨0xFEFD, random, sid, suite, 0, some es⟩, ?_, rfl, rfl, rfl, rfl, rfl, es, rfl, h6, ?_, ?_, ?_⟩
  · rw [hbody]
    show (opt (parseServerHello _)).map _ = _
    rw [hread]
    rfl
  · intro d hd
    rw [← hes] at hd
    cases srtp with
    | none => simp at hd
    | some p =>
      simp at hd
      refine ⟨p, rfl, ?_⟩
      rw [hd]
      show val (parseUseSrtp (putUseSrtp [p])) = _
      have hm := hp p rfl
      simp at hm
      rcases hm with rfl | rfl | rfl <;> decide +kernel
  · rw [← hes]; simp
  · rw [← hes]; simp

/-! ## The other messages -/

/-- HelloVerifyRequest: the client reads the cookie of the server. -/
theorem hello_verify_sent (env : PEnv) (ecdh : Bool) (cert : Bytes) (s : Option Nat) (cookie : Bytes)
    (hc : cookie.length ≤ 255) (hn : cookie ≠ []) :
    parseBody (codec env ecdh cert).toEnv 3 s ((codec env ecdh cert).helloVerifyBody cookie)
      = some ([], .helloVerifyRequest 0xFEFF cookie) := by
  show (opt (parseHelloVerify (beBytes 2 0xFEFF ++ putVec 1 cookie))).map _ = _
  unfold parseHelloVerify
  rw [beNat_beBytes _ _ _ (by omega)]
  simp only [PRes.bind_ok']
  rw [← List.append_nil (putVec 1 cookie), idParse_putVec 255 _ _ hc (by omega)]
  simp only [PRes.bind_ok']
  rw [if_neg (by simpa using hn)]
  rfl

theorem certs_put (cs : List Bytes) (r : Bytes) (hn : cs.length ≤ 32) (hc : ∀ c ∈ cs, c.length < 16777216)
    (hl : (cs.flatMap (putVec 3)).length < 16777216) :
    parseCertificate (putCertificate cs ++ r) = .ok r cs := by
  unfold parseCertificate putCertificate
  rw [vec_putVec 3 _ _ (by omega)]
  simp only [PRes.bind_ok']
  rw [loop_items parseCert (putVec 3) _ cs (fun c h r => vec_putVec 3 c r (by have := hc c h; omega))
    (fun c _ => by intro h; have := congrArg List.length h; simp [putVec_length] at this)
    _ [] (Nat.le_refl _), pushAll_if 32 _ cs [] (by simp)]
  have : cs.filter (fun _ => true) = cs := by simp
  rw [this, List.nil_append, if_pos hn]
  rfl

/-- Certificate: the peer reads the certificate of the configuration, and no other. -/
theorem certificate_sent (env : PEnv) (ecdh : Bool) (cert : Bytes) (s : Option Nat)
    (hc : cert.length < 16777213) :
    parseBody (codec env ecdh cert).toEnv 11 s (codec env ecdh cert).certificateBody
      = some ([], .certificate [cert]) := by
  show (opt (parseCertificate (putCertificate [cert]))).map _ = _
  have := certs_put [cert] [] (by simp) (by simp; omega) (by simp [putVec_length]; omega)
  rw [List.append_nil] at this
  rw [this]
  rfl

/-- A chain of up to 32 certificates is read as it is. -/
theorem certificates_read (cs : List Bytes) (hn : cs.length ≤ 32) (hc : ∀ c ∈ cs, c.length < 16777216)
    (hl : (cs.flatMap (prefixed 3)).length < 16777216) :
    opt (parseCertificate (prefixed 3 (cs.flatMap (prefixed 3)))) = some ([], cs) := by
  have h : (prefixed 3 : Bytes → Bytes) = putVec 3 := by funext b; exact prefixed_eq 3 b
  rw [h] at hl ⊢
  have := certs_put cs [] hn hc hl
  rw [List.append_nil] at this
  show opt (parseCertificate (putCertificate cs)) = _
  rw [this]
  rfl

/-- CertificateRequest: the client reads the hashes of the schemes the server asks for. -/
theorem cert_request_sent (env : PEnv) (ecdh : Bool) (cert : Bytes) (s : Option Nat) (sigs : List Nat)
    (hs : ∀ x ∈ sigs, x ∈ [0x0403, 0x0503, 0x0401, 0x0501]) (hl : sigs.length ≤ 4) (hn : sigs ≠ []) :
    parseBody (codec env ecdh cert).toEnv 13 s ((codec env ecdh cert).certRequestBody sigs)
      = some ([], .certificateRequest (sigs.map fun x => UInt8.ofNat (x / 256))) := by
  rw [body_request, codec_request, codec_request_body]
  simp only []
  unfold parseCertReq putCertReq certRequest
  simp only [List.append_assoc]
  rw [vec_putVec 1 _ _ (by simp)]
  simp only [PRes.bind_ok']
  rw [show many1 1 (fun b => (beNat 1 b).bind fun r v => PRes.ok r (UInt8.ofNat v)) (fun c => c == 64) [64]
    = .ok [] [64] from by decide +kernel]
  simp only [PRes.bind_ok', List.isEmpty_nil, Bool.not_true, Bool.false_eq_true, if_false]
  rw [if_neg (by simpa using hn), putList, vec_putVec 2 _ _ (by rw [flat2_length]; omega)]
  simp only [PRes.bind_ok']
  have hf : sigs.filter (fun s => supportedSigs.contains s) = sigs := filter_self fun x h => by
    have := hs x h; simp at this; simpa [supportedSigs] using this
  rw [many0_items 4 (beNat 2) (beBytes 2) _ sigs
    (fun x h r => beNat_beBytes 2 x r (by have := hs x h; simp at this; omega)) (fun x _ => be2_ne_nil x),
    hf, if_pos hl]
  simp only [PRes.bind_ok', List.isEmpty_nil, Bool.not_true, Bool.false_eq_true, if_false]
  rw [show vec 2 (putVec 2 (List.flatMap (putVec 2) [])) = .ok [] [] from by decide +kernel]
  simp only [PRes.bind_ok']
  rw [show loop parseName (pushIf 32 fun _ => true) (List.length ([] : Bytes)) [] ([] : Bytes) = .ok [] [] from rfl]
  rfl

/-- ServerKeyExchange of the certificate suites: the client reads curve type, group, public key, scheme and
signature the server wrote. -/
theorem server_kx_sent (env : PEnv) (ecdh : Bool) (cert : Bytes) (suite : Nat)
    (hsu : suite ∈ [0xC02C, 0xC02B, 0xCCA9]) (group alg : Nat) (pub sig : Bytes) (hg : group < 65536)
    (ha : alg < 65536) (hp : pub.length < 256) (hs : sig.length < 65536) :
    parseBody (codec env ecdh cert).toEnv 12 (some suite)
        ([3] ++ beBytes 2 group ++ [UInt8.ofNat pub.length] ++ pub ++ beBytes 2 alg ++ beBytes 2 sig.length ++ sig)
      = some ([], .serverKeyExchange (.ecdh 3 group pub (some (alg, sig)))) := by
  have hk : kxPsk suite = some false := by
    simp at hsu
    rcases hsu with rfl | rfl | rfl <;> decide
  have hb : ([3] ++ beBytes 2 group ++ [UInt8.ofNat pub.length] ++ pub ++ beBytes 2 alg ++ beBytes 2 sig.length
      ++ sig : Bytes) = 3 :: (beBytes 2 group ++ (putVec 1 pub ++ putSigned alg sig)) := by
    simp [putVec, putSigned, beBytes]
  rw [body_kx]
  show (opt (parseServerKx suite _)).map _ = _
  rw [hb]
  unfold parseServerKx
  rw [hk]
  simp only
  unfold parseEcdh
  rw [beNat_one_cons]
  simp only [PRes.bind_ok']
  rw [beNat_beBytes _ _ _ (by omega)]
  simp only [PRes.bind_ok']
  rw [vec_putVec 1 _ _ (by omega)]
  simp only [PRes.bind_ok']
  rw [if_neg (by simp [putSigned, beBytes])]
  rw [← List.append_nil (putSigned alg sig), parseSigned_put _ _ _ ha hs]
  rfl

/-- ServerKeyExchange of the PSK suite: the client reads the hint of the configuration, if its length fits
two bytes. -/
theorem psk_hint_sent (env : PEnv) (ecdh : Bool) (cert hint : Bytes) (hl : hint.length < 65536) :
    parseBody (codec env ecdh cert).toEnv 12 (some 0xC0A8) ((codec env ecdh cert).pskHintBody hint)
      = some ([], .serverKeyExchange (.psk hint)) := by
  rw [body_kx]
  show (opt (parseServerKx 0xC0A8 (putVec 2 hint))).map _ = _
  unfold parseServerKx
  rw [show kxPsk 0xC0A8 = some true from by decide]
  simp only
  rw [← List.append_nil (putVec 2 hint), vec_putVec 2 _ _ (by omega)]
  rfl

/-- ClientKeyExchange of the certificate suites. -/
theorem client_kx_sent (env : PEnv) (ecdh : Bool) (cert : Bytes) (suite : Nat)
    (hsu : suite ∈ [0xC02C, 0xC02B, 0xCCA9]) (pub : Bytes) (hp : pub.length < 256) :
    parseBody (codec env ecdh cert).toEnv 16 (some suite) ((codec env ecdh cert).clientKxBody pub)
      = some ([], .clientKeyExchange (.ecdh pub)) := by
  have hk : kxPsk suite = some false := by
    simp at hsu
    rcases hsu with rfl | rfl | rfl <;> decide
  rw [body_ckx]
  show (opt (parseClientKx suite (putVec 1 pub))).map _ = _
  unfold parseClientKx
  rw [hk]
  simp only
  rw [← List.append_nil (putVec 1 pub), vec_putVec 1 _ _ (by omega)]
  rfl

/-- What the server reads of the identity of a client, whatever its length: the length is sent in two bytes,
so a longer identity is cut to its length modulo 2^16 and the rest is left over. -/
theorem psk_identity_read (env : PEnv) (ecdh : Bool) (cert identity : Bytes) :
    parseBody (codec env ecdh cert).toEnv 16 (some 0xC0A8) ((codec env ecdh cert).clientPskBody identity)
      = some (identity.drop (identity.length % 65536),
          .clientKeyExchange (.psk (identity.take (identity.length % 65536)))) := by
  rw [body_ckx]
  show (opt (parseClientKx 0xC0A8 (putVec 2 identity))).map _ = _
  unfold parseClientKx
  rw [show kxPsk 0xC0A8 = some true from by decide]
  simp only
  rw [vec_long]
  rfl

/-- An identity of up to 65535 bytes arrives. -/
theorem psk_identity_sent_partial (env : PEnv) (ecdh : Bool) (cert identity : Bytes) (hl : identity.length < 65536) :
    parseBody (codec env ecdh cert).toEnv 16 (some 0xC0A8) ((codec env ecdh cert).clientPskBody identity)
      = some ([], .clientKeyExchange (.psk identity)) := by
  rw [psk_identity_read, Nat.mod_eq_of_lt hl]
  simp

/-- A longer one does not: bytes are left over, on which `Handshake::defragment` refuses the message. -/
theorem psk_identity_cut (env : PEnv) (ecdh : Bool) (cert identity : Bytes) (hl : 65536 ≤ identity.length) :
    ∃ r i, parseBody (codec env ecdh cert).toEnv 16 (some 0xC0A8) ((codec env ecdh cert).clientPskBody identity)
      = some (r, .clientKeyExchange (.psk i)) ∧ r ≠ [] ∧ i ≠ identity := by
  refine ⟨_, _, psk_identity_read env ecdh cert identity, ?_, ?_⟩
  · intro h
    have := congrArg List.length h
    have hm := Nat.mod_lt identity.length (show 65536 > 0 by omega)
    simp at this
    omega
  · intro h
    have := congrArg List.length h
    have hm := Nat.mod_lt identity.length (show 65536 > 0 by omega)
    simp at this
    omega

/-- CertificateVerify: the server reads scheme and signature. -/
theorem certificate_verify_sent (env : PEnv) (ecdh : Bool) (cert : Bytes) (s : Option Nat) (alg : Nat)
    (sig : Bytes) (ha : alg < 65536) (hs : sig.length < 65536) :
    parseBody (codec env ecdh cert).toEnv 15 s (beBytes 2 alg ++ beBytes 2 sig.length ++ sig)
      = some ([], .certificateVerify alg sig) := by
  have h := parseSigned_put alg sig [] ha hs
  rw [List.append_nil] at h
  have hb : (beBytes 2 alg ++ beBytes 2 sig.length ++ sig : Bytes) = putSigned alg sig := by
    simp [putSigned, putVec]
  rw [hb]
  show (opt (parseSigned _)).map _ = _
  rw [h]
  rfl

/-- Finished: the peer reads the verify data. -/
theorem finished_sent (env : PEnv) (ecdh : Bool) (cert : Bytes) (suite : Nat) (vd : Bytes) (hl : vd.length = 12) :
    parseBody (codec env ecdh cert).toEnv 20 (some suite) vd = some ([], .finished vd) := by
  have h := take_append vd [] 12 hl
  rw [List.append_nil] at h
  rw [body_finished]
  show (opt (parseFinished suite vd)).map _ = _
  unfold parseFinished
  rw [h]
  rfl

end Verif.Props.Msg12

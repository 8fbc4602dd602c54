import Verif.Props.Msg12
import Verif.Model.Msg13
/-!
# DTLS 1.3: what one side writes in a handshake message is what the other side reads (C57, C58)
-/
namespace Verif.Props.Msg13
open Verif Verif.Msg Verif.Msg13 Verif.Wire
open Verif.Props.Msg
open Verif.Props.Msg12 (filter_self putList_length)
open Verif.E13 (PEnv parseBody)

/-! ## ClientHello with entries of any kind (C58) -/

theorem clientExts_put (es : List (Nat × Bytes)) (h : Fits es) (hl : (es.flatMap putExt).length < 65536) :
    parseClientExts (putExts es) =
      if ((known supportedExts es).map (·.1)).Nodup then .ok [] (known supportedExts es) else .failure := by
  unfold parseClientExts putExts
  rw [if_neg (by simp [putVec, beBytes])]
  rw [← List.append_nil (putVec 2 _), vec_putVec 2 _ _ (by omega)]
  simp only [PRes.bind_ok', List.isEmpty_nil, Bool.not_true, Bool.false_eq_true, if_false]
  rw [parseExtData_items 8 supportedExts es h]
  by_cases hn : ((known supportedExts es).map (·.1)).Nodup
  · have hl := known_le hn
    have hl : (known supportedExts es).length ≤ 8 := by
      have : supportedExts.length = 6 := rfl
      omega
    rw [if_pos ⟨hn, hl⟩, if_pos hn]; rfl
  · rw [if_neg (fun x => hn x.1), if_neg hn]; rfl

/-- A server reads a ClientHello with any suites, compression methods and extensions, known or not, as
follows: of the suites it sees the three it supports, in the client's order; of the extensions those of the
six types it supports, in order; and it refuses the message exactly when no suite is offered, when none of
its suites are (unless the version is still open), when more than three entries for them are, when the null
compression is not listed exactly once, or when an extension of one of the six types occurs twice. -/
theorem client_hello_read (u : Bool) (version : Nat) (random sid cookie : Bytes) (suites : List Nat) (cs : Bytes)
    (exts : List (Nat × Bytes)) (h : HelloFits version random sid cookie suites cs exts) :
    opt (parseClientHello u (clientHello version random sid cookie suites cs exts)) =
      if suites ≠ [] ∧ (u = true ∨ suites.filter (fun s => [0x1301, 0x1302, 0x1303].contains s) ≠ [])
          ∧ (suites.filter (fun s => [0x1301, 0x1302, 0x1303].contains s)).length ≤ 3
          ∧ (cs.filter (· == 0)).length = 1
          ∧ Once [43, 10, 13, 51, 14, 44] exts
      then some ([], { version, random, sessionId := sid, cookie,
                       suites := suites.filter (fun s => [0x1301, 0x1302, 0x1303].contains s),
                       compressions := [0],
                       exts := exts.filter fun e => [43, 10, 13, 51, 14, 44].contains e.1 })
      else none := by
  rw [clientHello_eq]
  simp only [List.append_assoc]
  unfold parseClientHello
  rw [parseHead_put _ _ _ _ _ h.version h.random h.sid h.cookie]
  simp only [PRes.bind_ok']
  have hs2 := h.suites.2
  rw [putList, putVec, List.append_assoc, flat2_length, beNat_beBytes _ _ _ (by omega)]
  simp only [PRes.bind_ok']
  by_cases h0 : suites = []
  · subst h0
    rw [if_pos (Or.inl (by simp)), if_neg (fun x => x.1 rfl)]
    rfl
  have hpos := List.length_pos_iff.mpr h0
  rw [if_neg (by omega), take_append _ _ _ (flat2_length suites)]
  simp only [PRes.bind_ok']
  rw [many0_items 3 (beNat 2) (beBytes 2) _ suites
    (fun s hs r => beNat_beBytes 2 s r (by have := h.suites.1 s hs; omega)) (fun s _ => be2_ne_nil s),
    many1_items 3 (beNat 2) (beBytes 2) _ suites
    (fun s hs r => beNat_beBytes 2 s r (by have := h.suites.1 s hs; omega)) (fun s _ => be2_ne_nil s)]
  have hS : (fun s => supportedSuites.contains s) = (fun s : Nat => [0x1301, 0x1302, 0x1303].contains s) := rfl
  rw [hS]
  generalize hk : suites.filter (fun s : Nat => [0x1301, 0x1302, 0x1303].contains s) = kept
  have hsel : (if u = true then (if kept.length ≤ 3 then PRes.ok [] kept else .error)
      else (if kept ≠ [] ∧ kept.length ≤ 3 then .ok [] kept else .error)) =
      if (u = true ∨ kept ≠ []) ∧ kept.length ≤ 3 then PRes.ok [] kept else .error := by
    cases u <;> simp
  rw [hsel]
  by_cases h1 : (u = true ∨ kept ≠ []) ∧ kept.length ≤ 3
  · rw [if_pos h1]
    simp only [PRes.bind_ok', List.isEmpty_nil, Bool.not_true, Bool.false_eq_true, if_false]
    rw [parseCompression_put cs _ h.compressions]
    have hone : (cs.filter (· == 0) ≠ [] ∧ (cs.filter (· == 0)).length ≤ 1) ↔ (cs.filter (· == 0)).length = 1 := by
      constructor
      · rintro ⟨a, b⟩
        have := List.length_pos_iff.mpr a
        omega
      · intro e
        exact ⟨List.length_pos_iff.mp (by omega), by omega⟩
    by_cases h2 : (cs.filter (· == 0)).length = 1
    · rw [if_pos (hone.mpr h2)]
      simp only [PRes.bind_ok']
      have hc0 : cs.filter (· == 0) = [0] := by
        obtain ⟨x, hx⟩ := List.length_eq_one_iff.mp h2
        have : x ∈ cs.filter (· == 0) := by rw [hx]; simp
        have := (List.mem_filter.mp this).2
        rw [hx]
        simpa using this
      have hf : Fits exts := h.exts.1
      have hfl : (exts.flatMap putExt).length < 65536 := by
        have := h.exts.2; rwa [extension_eq] at this
      rw [clientExts_put exts hf hfl, hc0]
      by_cases h3 : Once [43, 10, 13, 51, 14, 44] exts
      · have hn := (once_iff supportedExts exts).mp h3
        rw [if_pos hn, if_pos ⟨h0, h1.1, h1.2, rfl, h3⟩]
        rfl
      · have hn : ¬ ((known supportedExts exts).map (·.1)).Nodup := fun x =>
          h3 ((once_iff supportedExts exts).mpr x)
        rw [if_neg hn, if_neg (fun x => h3 x.2.2.2.2)]
        rfl
    · rw [if_neg (fun x => h2 (hone.mp x)), if_neg (fun x => h2 x.2.2.2.1)]
      rfl
  · rw [if_neg h1, if_neg (fun x => h1 ⟨x.2.1, x.2.2.1⟩)]
    rfl

/-- So entries the server does not know make no difference: two hellos that offer suites and agree in the
suites, compression methods and extensions it supports are read alike. -/
theorem unknown_ignored (u : Bool) (version : Nat) (random sid cookie : Bytes) (suites suites' : List Nat) (cs cs' : Bytes)
    (exts exts' : List (Nat × Bytes)) (h : HelloFits version random sid cookie suites cs exts)
    (h' : HelloFits version random sid cookie suites' cs' exts') (hn : suites ≠ []) (hn' : suites' ≠ [])
    (hs : suites.filter (fun s => [0x1301, 0x1302, 0x1303].contains s)
      = suites'.filter (fun s => [0x1301, 0x1302, 0x1303].contains s))
    (hc : cs.filter (· == 0) = cs'.filter (· == 0))
    (he : exts.filter (fun e => [43, 10, 13, 51, 14, 44].contains e.1)
      = exts'.filter (fun e => [43, 10, 13, 51, 14, 44].contains e.1)) :
    opt (parseClientHello u (clientHello version random sid cookie suites cs exts))
      = opt (parseClientHello u (clientHello version random sid cookie suites' cs' exts')) := by
  rw [client_hello_read _ _ _ _ _ _ _ _ h, client_hello_read _ _ _ _ _ _ _ _ h', hs, hc, he]
  have ho : Once [43, 10, 13, 51, 14, 44] exts ↔ Once [43, 10, 13, 51, 14, 44] exts' := by
    rw [once_iff, once_iff, known, known, he]
  simp only [ho, hn, hn', ne_eq, not_false_eq_true, true_and]

/-- A hello of a client of both versions, with a suite and an extension unknown to DTLS 1.3. -/
example : HelloFits 0xFEFD (List.replicate 32 7) [] [] [0x1301, 0xC02B] [0] [(43, [2, 0xFE, 0xFC]), (23, [])] := by
  constructor <;> decide

/-- It is read: one suite and one extension remain. -/
example : opt (parseClientHello false (clientHello 0xFEFD (List.replicate 32 7) [] [] [0x1301, 0xC02B] [0]
    [(43, [2, 0xFE, 0xFC]), (23, [])])) =
    some ([], { version := 0xFEFD, random := List.replicate 32 7, sessionId := [], cookie := [],
                suites := [0x1301], compressions := [0], exts := [(43, [2, 0xFE, 0xFC])] }) := by decide +kernel

/-- Four entries for a supported suite make the hello unreadable. -/
theorem repeats_refused :
    opt (parseClientHello true (clientHello 0xFEFD (List.replicate 32 7) [] [] (List.replicate 4 0x1301) [0] [])) = none := by
  decide +kernel

/-! ## The extensions with entries of any kind (C58) -/

theorem num2_eq : (num 2 : Nat → Bytes) = beBytes 2 := by funext v; exact num_eq 2 v

/-- Versions of a ClientHello: the three of DTLS are seen; more than three entries for them are refused. -/
theorem versions_read (l : List Nat) (hu : ∀ g ∈ l, g < 65536) (hl : l.length < 128) (hn : l ≠ []) :
    val (parseClientVersions (prefixed 1 (l.flatMap (num 2)))) =
      if (l.filter fun v => [0xFEFF, 0xFEFD, 0xFEFC].contains v).length ≤ 3
      then some (l.filter fun v => [0xFEFF, 0xFEFD, 0xFEFC].contains v) else none := by
  have hp := List.length_pos_iff.mpr hn
  rw [prefixed_eq, num2_eq]
  show val (parseClientVersions (putList 1 l)) = _
  unfold parseClientVersions
  rw [listExt_putList 1 3 _ _ _ hu (by omega) (by simp; omega)]
  show val (if (l.filter fun v => [0xFEFF, 0xFEFD, 0xFEFC].contains v).length ≤ 3 then _ else _) = _
  split <;> rfl

/-- Signature schemes: the two supported ones. -/
theorem sigs_read (l : List Nat) (hu : ∀ g ∈ l, g < 65536) (hl : l.length < 32768) (hn : l ≠ []) :
    val (parseSigAlgs (prefixed 2 (l.flatMap (num 2)))) =
      if (l.filter fun g => [0x0403, 0x0503].contains g).length ≤ 2
      then some (l.filter fun g => [0x0403, 0x0503].contains g) else none := by
  have hp := List.length_pos_iff.mpr hn
  rw [prefixed_eq, num2_eq]
  show val (parseSigAlgs (putList 2 l)) = _
  unfold parseSigAlgs
  rw [listExt_putList 2 2 _ _ _ hu (by omega) (by simp; omega)]
  show val (if (l.filter fun g => [0x0403, 0x0503].contains g).length ≤ 2 then _ else _) = _
  split <;> rfl

theorem share_put (e : Nat × Bytes) (r : Bytes) (hg : e.1 < 65536) (hk : e.2.length < 65536) :
    parseShare (putShare e ++ r) = .ok r e := by
  unfold parseShare putShare
  rw [List.append_assoc, beNat_beBytes _ _ _ (by omega)]
  simp only [PRes.bind_ok']
  rw [vec_putVec 2 _ _ (by omega)]
  rfl

/-- Key shares of a client: those for the four supported groups; more than four of them are refused. -/
theorem shares_read (l : List (Nat × Bytes)) (hu : ∀ e ∈ l, e.1 < 65536 ∧ e.2.length < 65536)
    (hl : (l.flatMap fun e => num 2 e.1 ++ prefixed 2 e.2).length < 65536) :
    val (parseClientShares (prefixed 2 (l.flatMap fun e => num 2 e.1 ++ prefixed 2 e.2))) =
      if (l.filter fun e => [0x001D, 0x0017, 0x0018, 0x0019].contains e.1).length ≤ 4
      then some (l.filter fun e => [0x001D, 0x0017, 0x0018, 0x0019].contains e.1) else none := by
  have hp : (fun e : Nat × Bytes => num 2 e.1 ++ prefixed 2 e.2) = putShare := by
    funext e; rw [num_eq, prefixed_eq]; rfl
  rw [hp] at hl ⊢
  rw [prefixed_eq]
  unfold parseClientShares
  rw [← List.append_nil (putVec 2 _), vec_putVec 2 _ _ (by omega)]
  simp only [PRes.bind_ok', List.isEmpty_nil, Bool.not_true, Bool.false_eq_true, if_false]
  rw [loop_items parseShare putShare _ l (fun e h r => share_put e r (hu e h).1 (hu e h).2)
    (fun e _ => by intro h; have := congrArg List.length h; simp [putShare] at this)
    _ [] (Nat.le_refl _), pushAll_if 4 _ l [] (by simp)]
  simp only [List.nil_append]
  have hS : (fun e : Nat × Bytes => supportedGroups.contains e.1)
      = fun e => [0x001D, 0x0017, 0x0018, 0x0019].contains e.1 := rfl
  rw [hS]
  by_cases hc : (l.filter fun e => [0x001D, 0x0017, 0x0018, 0x0019].contains e.1).length ≤ 4
  · rw [if_pos hc]; rfl
  · rw [if_neg hc]; rfl

theorem cookie_read (c : Bytes) (hl : c.length < 65536) (hn : c ≠ []) :
    val (parseCookie (prefixed 2 c)) = some c := by
  have hp := List.length_pos_iff.mpr hn
  rw [prefixed_eq]
  unfold parseCookie putVec
  rw [if_neg (by simp), beNat_beBytes _ _ _ (by omega)]
  simp only [PRes.bind_ok']
  rw [if_neg (by omega)]
  rfl

/-! ## The ClientHello of the client (C57) -/

/-- The layout of what `ClientHello::serialize` writes. -/
theorem client_hello_layout (h : E13.ClientHello) (he : h.exts ≠ []) :
    putClientHello h = clientHello h.version h.random h.sessionId h.cookie h.suites h.compressions h.exts := by
  rw [clientHello_eq, putClientHello, if_neg (by simpa using he)]

theorem flat_putExt (l : List (Nat × Bytes)) :
    (l.flatMap putExt).length = l.length * 4 + (l.map fun e => e.2.length).sum := by
  induction l with
  | nil => rfl
  | cons a l ih => simp [ih, putExt, putVec_length]; omega

theorem exts0_sum (groups : List Nat) (group : Nat) (pub : Bytes) (cookie : Option Bytes) :
    (clientExts0 groups group pub cookie).length * 4 + ((clientExts0 groups group pub cookie).map fun e => e.2.length).sum
      = 46 + 2 * groups.length + pub.length + (match cookie with | some c => 4 + c.length | none => 0) := by
  cases cookie <;>
    simp [clientExts0, putVec_length, putList_length, putUseSrtp, putShare, defaultProfiles, E13.supportedSchemes] <;> omega

/-- The size of the extension block: what the padding brings the record to, or its natural size. -/
theorem block_length (mtu n : Nat) (es : List (Nat × Bytes)) :
    ((clientExts mtu n es).flatMap putExt).length =
      if 67 + n * 2 + (es.flatMap putExt).length + 4 ≤ mtu then mtu - (67 + n * 2)
      else (es.flatMap putExt).length := by
  rw [flat_putExt, flat_putExt]
  unfold clientExts
  simp only
  by_cases h : mtu - (13 + 12 + (2 + 32 + 1 + 1 + (2 + n * 2) + (1 + 1) + 2 + es.length * 4
      + (es.map fun e => e.2.length).sum)) ≥ 4
  · rw [if_pos h, if_pos (by omega)]
    simp
    omega
  · rw [if_neg h, if_neg (by omega)]

theorem exts_known (mtu n : Nat) (groups : List Nat) (group : Nat) (pub : Bytes) (cookie : Option Bytes) :
    known supportedExts (clientExts mtu n (clientExts0 groups group pub cookie)) = clientExts0 groups group pub cookie := by
  unfold clientExts
  simp only
  split <;> cases cookie <;> rfl

theorem exts_fits (mtu n : Nat) (groups : List Nat) (group : Nat) (pub : Bytes) (cookie : Option Bytes)
    (hb : ((clientExts mtu n (clientExts0 groups group pub cookie)).flatMap putExt).length < 65536) :
    Fits (clientExts mtu n (clientExts0 groups group pub cookie)) := by
  intro e he
  constructor
  · have : e.1 ∈ [43, 10, 51, 13, 14, 44, 21] := by
      unfold clientExts at he
      simp only at he
      have hm : e.1 ∈ (clientExts0 groups group pub cookie).map (·.1) ∨ e.1 = 21 := by
        split at he
        · rcases List.mem_append.mp he with h | h
          · exact Or.inl (List.mem_map.mpr ⟨e, h, rfl⟩)
          · simp at h; rw [h]; exact Or.inr rfl
        · exact Or.inl (List.mem_map.mpr ⟨e, he, rfl⟩)
      cases cookie <;> simp [clientExts0] at hm ⊢ <;> omega
    simp at this
    omega
  · generalize clientExts mtu n (clientExts0 groups group pub cookie) = es at he hb
    have : e.2.length ≤ (es.flatMap putExt).length := by
      clear hb
      induction es with
      | nil => simp at he
      | cons a es ih =>
        simp only [List.flatMap_cons, List.length_append]
        rcases List.mem_cons.mp he with rfl | h
        · have : (putExt e).length = 4 + e.2.length := by simp [putExt, putVec_length]; omega
          omega
        · have := ih h; omega
    omega

theorem codec_clientHello (env : PEnv) (mtu : Nat) (cert : Bytes) :
    (codec env mtu cert).parseClientHello = fun u b => opt (parseClientHello u b) := rfl

theorem codec_srtp (env : PEnv) (mtu : Nat) (cert b : Bytes) :
    (codec env mtu cert).parseUseSrtp b = val (parseUseSrtp b) := rfl

/-- What a client sends as ClientHello is what the server reads, if MTU, key and cookie are such that the
length of the extension block fits its field, that is if the MTU is not larger than 65602 and two for each suite: the suites of the configuration, no session id, no legacy
cookie, no compression, and the extensions with version, groups of the configuration, key share, signature
schemes and SRTP profiles of the implementation and the cookie. The padding is not seen. -/
theorem client_hello_sent_partial (env : PEnv) (mtu : Nat) (cert : Bytes) (u : Bool) (s : Option Nat) (random : Bytes)
    (group : Nat) (pub : Bytes) (cookie : Option Bytes) (hr : random.length = 32)
    (hm : mtu < 65603 + 2 * (env.allowed.take 3).length) (hpl : pub.length + (cookie.getD []).length ≤ 60000)
    (ha : ∀ x ∈ env.allowed, x ∈ [0x1301, 0x1302, 0x1303]) (hn : env.allowed ≠ [])
    (hg : ∀ g ∈ env.groups, g ∈ [0x001D, 0x0017, 0x0018, 0x0019]) (hgl : env.groups.length ≤ 4)
    (hgr : group ∈ env.groups) :
    ∃ h, parseBody (codec env mtu cert).toEnv u 1 s ((codec env mtu cert).clientHelloBody random group pub cookie)
        = some ([], .clientHello h)
      ∧ h.version = 0xFEFD ∧ h.random = random ∧ h.sessionId = [] ∧ h.cookie = []
      ∧ h.suites = env.allowed.take 3 ∧ h.compressions = [0]
      ∧ h.exts.map (·.1) = [43, 10, 51, 13, 14] ++ (match cookie with | some _ => [44] | none => [])
      ∧ (∀ d, (43, d) ∈ h.exts → (codec env mtu cert).parseClientVersions d = some [0xFEFC])
      ∧ (∀ d, (10, d) ∈ h.exts → (codec env mtu cert).parseGroups d = some env.groups)
      ∧ (∀ d, (51, d) ∈ h.exts → (codec env mtu cert).parseClientShares d = some [(group, pub)])
      ∧ (∀ d, (14, d) ∈ h.exts → (codec env mtu cert).parseUseSrtp d = some [8, 7, 1])
      ∧ (∀ d, (44, d) ∈ h.exts → cookie = some d) := by
  have hal : (env.allowed.take 3).length ≤ 3 ∧ 1 ≤ (env.allowed.take 3).length := by
    have := List.length_pos_iff.mpr hn
    rw [List.length_take]; omega
  have hkeep : ∀ x ∈ env.allowed.take 3, [0x1301, 0x1302, 0x1303].contains x = true := by
    intro x hx
    have := ha x (List.mem_of_mem_take hx)
    simpa using this
  generalize hes : clientExts mtu (env.allowed.take 3).length (clientExts0 env.groups group pub cookie) = es
  have hblock : (es.flatMap putExt).length < 65536 := by
    rw [← hes, block_length, flat_putExt, exts0_sum]
    cases cookie <;> simp only [Option.getD_some, Option.getD_none, List.length_nil] at hpl <;>
      simp only <;> split <;> omega
  have hknown : known supportedExts es = clientExts0 env.groups group pub cookie := by rw [← hes]; exact exts_known ..
  have hfit : Fits es := by
    rw [← hes] at hblock ⊢
    exact exts_fits _ _ _ _ _ _ hblock
  have hne : es ≠ [] := by
    intro h
    rw [h] at hknown
    simp [clientExts0, known] at hknown
  have hread := client_hello_read u 0xFEFD random [] [] (env.allowed.take 3) [0] es
    { version := by omega, random := hr, sid := by simp, cookie := by simp,
      suites := ⟨fun x hx => by
        have := ha x (List.mem_of_mem_take hx)
        simp at this; omega, by omega⟩,
      compressions := by simp,
      exts := ⟨hfit, by rw [extension_eq]; exact hblock⟩ }
  rw [filter_self hkeep] at hread
  have hkn : es.filter (fun e => [43, 10, 13, 51, 14, 44].contains e.1) = clientExts0 env.groups group pub cookie := hknown
  rw [hkn] at hread
  have hne3 : env.allowed.take 3 ≠ [] := List.length_pos_iff.mp (by omega)
  rw [if_pos ⟨hne3, Or.inr hne3, hal.1, by decide, (once_iff [43, 10, 13, 51, 14, 44] es).mpr (by
    have : known [43, 10, 13, 51, 14, 44] es = clientExts0 env.groups group pub cookie := hknown
    rw [this]
    cases cookie <;> simp [clientExts0])⟩] at hread
  have hbody : (codec env mtu cert).clientHelloBody random group pub cookie
      = clientHello 0xFEFD random [] [] (env.allowed.take 3) [0] es := by
    rw [← hes]
    refine client_hello_layout (Msg13.clientHello env mtu random group pub cookie) ?_
    show clientExts mtu (env.allowed.take 3).length (clientExts0 env.groups group pub cookie) ≠ []
    rw [hes]; exact hne
  refine ⟨⟨0xFEFD, random, [], [], env.allowed.take 3, [0], clientExts0 env.groups group pub cookie⟩,
    ?_, rfl, rfl, rfl, rfl, rfl, rfl, ?_, ?_, ?_, ?_, ?_, ?_⟩
  · rw [hbody]
    show ((codec env mtu cert).parseClientHello u _).map _ = _
    rw [codec_clientHello]
    simp only
    rw [hread]
    rfl
  · cases cookie <;> rfl
  · intro d hd
    have : d = putList 1 [0xFEFC] := by cases cookie <;> simp [clientExts0] at hd <;> exact hd
    rw [this]
    show val (parseClientVersions (putList 1 [0xFEFC])) = _
    decide +kernel
  · intro d hd
    have : d = putList 2 env.groups := by cases cookie <;> simp [clientExts0] at hd <;> exact hd
    rw [this]
    show val (parseGroups _) = _
    unfold parseGroups
    rw [listExt_putList 2 4 _ _ _ (fun g h => by have := hg g h; simp at this; omega) (by omega) (by simp)]
    have hf : env.groups.filter (fun g => supportedGroups.contains g) = env.groups :=
      filter_self fun g h => by have := hg g h; simp at this; simpa [supportedGroups] using this
    rw [hf, if_pos hgl]
    rfl
  · intro d hd
    have : d = putVec 2 (putShare (group, pub)) := by cases cookie <;> simp [clientExts0] at hd <;> exact hd
    rw [this]
    have hgm := hg group hgr
    have hs := shares_read [(group, pub)] (by simp; simp at hgm; omega) (by
      simp only [List.flatMap_cons, List.flatMap_nil, List.append_nil, num_eq, prefixed_eq, List.length_append,
        beBytes_length, putVec_length]
      omega)
    simp only [List.flatMap_cons, List.flatMap_nil, List.append_nil, prefixed_eq, num_eq] at hs
    show val (parseClientShares (putVec 2 (beBytes 2 group ++ putVec 2 pub))) = _
    rw [hs]
    have hgc : [0x001D, 0x0017, 0x0018, 0x0019].contains group = true := by simp at hgm; simpa using hgm
    simp only [List.filter_cons, hgc, if_true, List.filter_nil]
    rfl
  · intro d hd
    have : d = putUseSrtp defaultProfiles := by cases cookie <;> simp [clientExts0] at hd <;> exact hd
    rw [this]
    rw [codec_srtp, Msg12.srtp_default]
  · intro d hd
    cases cookie with
    | none => simp [clientExts0] at hd
    | some c => simp [clientExts0] at hd; rw [hd]

/-- With a larger MTU the padding makes the block longer than its length field can say, and no server can
read the ClientHello. -/
theorem client_hello_wraps (env : PEnv) (mtu : Nat) (cert : Bytes) (u : Bool) (s : Option Nat) (random : Bytes)
    (group : Nat) (pub : Bytes) (cookie : Option Bytes) (hr : random.length = 32)
    (hm : 65603 + 2 * (env.allowed.take 3).length ≤ mtu)
    (hgl : env.groups.length ≤ 4) (hpl : pub.length + (cookie.getD []).length ≤ 60000)
    (ha : ∀ x ∈ env.allowed, x < 65536) :
    parseBody (codec env mtu cert).toEnv u 1 s ((codec env mtu cert).clientHelloBody random group pub cookie) = none := by
  have hal : (env.allowed.take 3).length ≤ 3 := by rw [List.length_take]; omega
  generalize hes : clientExts mtu (env.allowed.take 3).length (clientExts0 env.groups group pub cookie) = es
  have hblock : 65536 ≤ (es.flatMap putExt).length := by
    rw [← hes, block_length, flat_putExt, exts0_sum]
    cases cookie <;> simp only [Option.getD_some, Option.getD_none, List.length_nil] at hpl <;>
      simp only <;> split <;> omega
  have hne : es ≠ [] := by intro h; rw [h] at hblock; simp at hblock
  have hbody : (codec env mtu cert).clientHelloBody random group pub cookie
      = putHead 0xFEFD random [] [] ++ putList 2 (env.allowed.take 3) ++ putVec 1 [0] ++ putExts es := by
    show putClientHello (Msg13.clientHello env mtu random group pub cookie) = _
    unfold putClientHello
    rw [if_neg (by
      show ¬ (clientExts mtu (env.allowed.take 3).length (clientExts0 env.groups group pub cookie)).isEmpty = true
      rw [hes]; simpa using hne)]
    show _ ++ putExts (clientExts mtu (env.allowed.take 3).length (clientExts0 env.groups group pub cookie)) = _
    rw [hes]
    rfl
  have hext : parseClientExts (putExts es) = .failure := by
    unfold parseClientExts putExts
    rw [if_neg (by simp [putVec, beBytes]), vec_long]
    simp only [PRes.bind_ok']
    rw [if_pos]
    have hmod := Nat.mod_lt (es.flatMap putExt).length (show 256 ^ 2 > 0 by omega)
    have : (es.flatMap putExt).drop ((es.flatMap putExt).length % 256 ^ 2) ≠ [] := by
      intro h
      have := congrArg List.length h
      rw [List.length_drop, List.length_nil] at this
      omega
    simpa using this
  show ((codec env mtu cert).parseClientHello u _).map _ = _
  rw [codec_clientHello, hbody]
  simp only [List.append_assoc]
  unfold parseClientHello
  rw [parseHead_put _ _ _ _ _ (by omega) hr (by simp) (by simp)]
  simp only [PRes.bind_ok']
  rw [putList, putVec, List.append_assoc, flat2_length, beNat_beBytes _ _ _ (by omega)]
  simp only [PRes.bind_ok']
  split
  · rfl
  rw [take_append _ _ _ (flat2_length _)]
  simp only [PRes.bind_ok']
  rw [many0_items 3 (beNat 2) (beBytes 2) _ _
    (fun s hs r => beNat_beBytes 2 s r (by have := ha s (List.mem_of_mem_take hs); omega)) (fun s _ => be2_ne_nil s),
    many1_items 3 (beNat 2) (beBytes 2) _ _
    (fun s hs r => beNat_beBytes 2 s r (by have := ha s (List.mem_of_mem_take hs); omega)) (fun s _ => be2_ne_nil s)]
  have hcomp := parseCompression_put [0] (putExts es) (by simp)
  rw [if_pos (by decide)] at hcomp
  rw [hcomp]
  simp only [PRes.bind_ok']
  rw [hext]
  cases u <;> simp only [Bool.false_eq_true, if_true, if_false]
  · split <;> rfl
  · split <;> rfl

/-! ## ServerHello and HelloRetryRequest -/

/-- A client reads a ServerHello with any extensions as follows: of the extensions it sees those of the six
types it supports; it refuses the message exactly when one of them occurs twice or all six occur. -/
theorem server_hello_read (version : Nat) (random sid : Bytes) (suite : Nat) (c : UInt8)
    (exts : List (Nat × Bytes)) (hv : version < 65536) (hr : random.length = 32) (hs : sid.length ≤ 32)
    (hsu : suite < 65536) (hne : exts ≠ []) (hf : ∀ e ∈ exts, e.1 < 65536 ∧ e.2.length < 65536)
    (hl : (exts.flatMap extension).length < 65536) :
    opt (parseServerHello (serverHello version random sid suite c exts)) =
      if Once [43, 10, 13, 51, 14, 44] exts
          ∧ (exts.filter fun e => [43, 10, 13, 51, 14, 44].contains e.1).length ≤ 5
      then some ([], { version, random, sessionId := sid, suite, compression := c,
                       exts := some (exts.filter fun e => [43, 10, 13, 51, 14, 44].contains e.1) })
      else none := by
  rw [extension_eq] at hl
  rw [serverHello_eq]
  simp only [List.append_assoc]
  unfold parseServerHello
  rw [beNat_beBytes _ _ _ (by omega)]
  simp only [PRes.bind_ok']
  rw [take_append _ _ _ hr]
  simp only [PRes.bind_ok']
  rw [idParse_putVec 32 _ _ hs (by omega)]
  simp only [PRes.bind_ok']
  rw [beNat_beBytes _ _ _ (by omega)]
  simp only [PRes.bind_ok']
  rw [List.singleton_append, beNat_one_cons]
  simp only [PRes.bind_ok']
  rw [parseServerExts_put 5 supportedExts exts hf hl hne]
  by_cases h3 : Once [43, 10, 13, 51, 14, 44] exts
      ∧ (exts.filter fun e => [43, 10, 13, 51, 14, 44].contains e.1).length ≤ 5
  · have hn := (once_iff supportedExts exts).mp h3.1
    rw [if_pos ⟨hn, h3.2⟩, if_pos h3]
    simp only [PRes.bind_ok', opt, UInt8.ofNat_toNat]
    rfl
  · rw [if_neg (fun x => h3 ⟨(once_iff supportedExts exts).mpr x.1, x.2⟩), if_neg h3]
    rfl

theorem server_body (random : Bytes) (suite : Nat) (es : List (Nat × Bytes)) :
    putServerHello ⟨0xFEFD, random, [], suite, 0, some es⟩ = serverHello 0xFEFD random [] suite 0 es := by
  rw [serverHello_eq]; rfl

theorem codec_serverHello (env : PEnv) (mtu : Nat) (cert : Bytes) :
    (codec env mtu cert).parseServerHello = fun b => opt (parseServerHello b) := rfl

/-- What a server sends as ServerHello is what the client reads: version, random, suite, no compression, the
selected version and the key share. -/
theorem server_hello_sent (env : PEnv) (mtu : Nat) (cert : Bytes) (u : Bool) (s : Option Nat) (random : Bytes)
    (suite group : Nat) (pub : Bytes) (hr : random.length = 32) (hsu : suite < 65536) (hg : group < 65536)
    (hp : pub.length < 65000) :
    ∃ v k, parseBody (codec env mtu cert).toEnv u 2 s ((codec env mtu cert).serverHelloBody random suite group pub)
        = some ([], .serverHello ⟨0xFEFD, random, [], suite, 0, some [(43, v), (51, k)]⟩)
      ∧ (codec env mtu cert).parseServerVersion v = some 0xFEFC
      ∧ (codec env mtu cert).parseServerShare k = some (group, pub) := by
  have hes : Fits [(43, beBytes 2 0xFEFC), (51, putShare (group, pub))] := by
    intro e he
    simp at he
    rcases he with rfl | rfl <;> simp [putShare, putVec_length]
    omega
  have hread := server_hello_read 0xFEFD random [] suite 0 [(43, beBytes 2 0xFEFC), (51, putShare (group, pub))]
    (by omega) hr (by simp) hsu (by simp) hes (by
      rw [extension_eq, flat_putExt]; simp [putShare, putVec_length]; omega)
  rw [if_pos ⟨(once_iff [43, 10, 13, 51, 14, 44] _).mpr (by simp [known]), by simp⟩] at hread
  refine ⟨beBytes 2 0xFEFC, putShare (group, pub), ?_, ?_, ?_⟩
  · show ((codec env mtu cert).parseServerHello (putServerHello (Msg13.serverHello random suite group pub))).map _ = _
    rw [codec_serverHello]
    simp only [Msg13.serverHello]
    rw [server_body, hread]
    rfl
  · show val (parseServerVersion (beBytes 2 0xFEFC)) = _
    decide +kernel
  · show val (parseServerShare (putShare (group, pub))) = _
    unfold parseServerShare
    rw [← List.append_nil (putShare _), share_put (group, pub) [] hg (by simp; omega)]
    rfl

/-- What a server sends as HelloRetryRequest is what the client reads: suite, selected version, the group
asked for, if any, and the cookie, which the client returns as it came. -/
theorem hello_retry_sent (env : PEnv) (mtu : Nat) (cert : Bytes) (u : Bool) (s : Option Nat) (suite : Nat)
    (cookie : Bytes) (group : Option Nat) (hsu : suite < 65536) (hg : ∀ g, group = some g → g < 65536)
    (hc : cookie.length < 65000) (hn : cookie ≠ []) :
    ∃ v k c, parseBody (codec env mtu cert).toEnv u 2 s ((codec env mtu cert).retryBody suite cookie group)
        = some ([], .serverHello ⟨0xFEFD, E13.hrrRandom, [], suite, 0,
            some ([(43, v)] ++ (match group with | some _ => [(51, k)] | none => []) ++ [(44, c)])⟩)
      ∧ (codec env mtu cert).parseServerVersion v = some 0xFEFC
      ∧ (∀ g, group = some g → (codec env mtu cert).parseRetryShare k = some g)
      ∧ (codec env mtu cert).parseCookie c = some cookie := by
  have hcook : val (parseCookie (putVec 2 cookie)) = some cookie := by
    have := cookie_read cookie (by omega) hn
    rwa [prefixed_eq] at this
  have hrr : E13.hrrRandom.length = 32 := by decide
  cases group with
  | none =>
    have hes : Fits [(43, beBytes 2 0xFEFC), (44, putVec 2 cookie)] := by
      intro e he
      simp at he
      rcases he with rfl | rfl <;> simp [putVec_length]
      omega
    have hread := server_hello_read 0xFEFD E13.hrrRandom [] suite 0 [(43, beBytes 2 0xFEFC), (44, putVec 2 cookie)]
      (by omega) hrr (by simp) hsu (by simp) hes (by
        rw [extension_eq, flat_putExt]; simp [putVec_length]; omega)
    rw [if_pos ⟨(once_iff [43, 10, 13, 51, 14, 44] _).mpr (by simp [known]), by simp⟩] at hread
    refine ⟨beBytes 2 0xFEFC, [], putVec 2 cookie, ?_, ?_, (by simp), hcook⟩
    · show ((codec env mtu cert).parseServerHello (putServerHello (helloRetry suite cookie none))).map _ = _
      rw [codec_serverHello]
      simp only [helloRetry, List.append_nil, List.singleton_append]
      rw [server_body, hread]
      rfl
    · show val (parseServerVersion (beBytes 2 0xFEFC)) = _
      decide +kernel
  | some g =>
    have hes : Fits [(43, beBytes 2 0xFEFC), (51, beBytes 2 g), (44, putVec 2 cookie)] := by
      intro e he
      simp at he
      rcases he with rfl | rfl | rfl <;> simp [putVec_length]
      omega
    have hread := server_hello_read 0xFEFD E13.hrrRandom [] suite 0
      [(43, beBytes 2 0xFEFC), (51, beBytes 2 g), (44, putVec 2 cookie)]
      (by omega) hrr (by simp) hsu (by simp) hes (by
        rw [extension_eq, flat_putExt]; simp [putVec_length]; omega)
    rw [if_pos ⟨(once_iff [43, 10, 13, 51, 14, 44] _).mpr (by simp [known]), by simp⟩] at hread
    refine ⟨beBytes 2 0xFEFC, beBytes 2 g, putVec 2 cookie, ?_, ?_, ?_, hcook⟩
    · show ((codec env mtu cert).parseServerHello (putServerHello (helloRetry suite cookie (some g)))).map _ = _
      rw [codec_serverHello]
      simp only [helloRetry, List.cons_append, List.nil_append]
      rw [server_body, hread]
      rfl
    · show val (parseServerVersion (beBytes 2 0xFEFC)) = _
      decide +kernel
    · intro g' hg'
      cases hg'
      show val (parseRetryShare (beBytes 2 g)) = _
      unfold parseRetryShare
      have := hg g rfl
      rw [← List.append_nil (beBytes 2 g), beNat_beBytes _ _ _ (by omega)]
      rfl

/-! ## The other messages -/

/-- EncryptedExtensions with any extensions. -/
theorem enc_exts_read (exts : List (Nat × Bytes)) (hf : ∀ e ∈ exts, e.1 < 65536 ∧ e.2.length < 65536)
    (hl : (exts.flatMap extension).length < 65536) :
    opt (parseEncExts (prefixed 2 (exts.flatMap extension))) =
      if Once [43, 10, 13, 51, 14, 44] exts
          ∧ (exts.filter fun e => [43, 10, 13, 51, 14, 44].contains e.1).length ≤ 5
      then some ([], exts.filter fun e => [43, 10, 13, 51, 14, 44].contains e.1) else none := by
  rw [extension_eq] at hl ⊢
  rw [prefixed_eq]
  unfold parseEncExts
  rw [← List.append_nil (putVec 2 _), vec_putVec 2 _ _ (by omega)]
  simp only [PRes.bind_ok']
  rw [parseExtData_items 5 supportedExts exts hf]
  by_cases h3 : Once [43, 10, 13, 51, 14, 44] exts
      ∧ (exts.filter fun e => [43, 10, 13, 51, 14, 44].contains e.1).length ≤ 5
  · rw [if_pos ⟨(once_iff supportedExts exts).mp h3.1, h3.2⟩, if_pos h3]
    rfl
  · rw [if_neg (fun x => h3 ⟨(once_iff supportedExts exts).mpr x.1, x.2⟩), if_neg h3]
    rfl

theorem body_encExts (env : PEnv) (mtu : Nat) (cert : Bytes) (u : Bool) (s : Option Nat) (srtp : Option Nat) :
    parseBody (codec env mtu cert).toEnv u 8 s ((codec env mtu cert).encryptedExtensionsBody srtp)
      = (opt (parseEncExts (putExts (encExts srtp)))).map fun (r, x) => (r, .encryptedExtensions x) := rfl

/-- EncryptedExtensions of the server: the SRTP profile chosen, if any. -/
theorem enc_exts_sent (env : PEnv) (mtu : Nat) (cert : Bytes) (u : Bool) (s : Option Nat) (srtp : Option Nat)
    (hp : ∀ p, srtp = some p → p ∈ [1, 7, 8]) :
    ∃ d, parseBody (codec env mtu cert).toEnv u 8 s ((codec env mtu cert).encryptedExtensionsBody srtp)
        = some ([], .encryptedExtensions (match srtp with | some _ => [(14, d)] | none => []))
      ∧ ∀ p, srtp = some p → (codec env mtu cert).parseUseSrtp d = some [p] := by
  cases srtp with
  | none =>
    refine ⟨[], ?_, by simp⟩
    rw [body_encExts]
    rw [show opt (parseEncExts (putExts (encExts none))) = some ([], []) from by decide +kernel]
    rfl
  | some p =>
    have hm := hp p rfl
    simp at hm
    refine ⟨putUseSrtp [p], ?_, ?_⟩
    · rw [body_encExts]
      show (opt (parseEncExts (putExts [(14, putUseSrtp [p])]))).map _ = _
      rw [show opt (parseEncExts (putExts [(14, putUseSrtp [p])])) = some ([], [(14, putUseSrtp [p])]) from by
        rcases hm with rfl | rfl | rfl <;> decide +kernel]
      rfl
    · intro q hq
      cases hq
      show val (parseUseSrtp (putUseSrtp [p])) = _
      rcases hm with rfl | rfl | rfl <;> decide +kernel

theorem entry_put (c : Bytes) (es : Bytes) (r : Bytes) (hc : c.length < 16777216) (he : es.length < 65536) :
    parseCertEntry (putVec 3 c ++ putVec 2 es ++ r) = .ok r c := by
  unfold parseCertEntry parseCert
  rw [List.append_assoc, vec_putVec 3 _ _ (by omega)]
  simp only [PRes.bind_ok']
  rw [vec_putVec 2 _ _ (by omega)]
  rfl

/-- Certificate with a chain of up to 32 entries, each with any extensions: context and certificates. -/
theorem certificates_read (ctx : Bytes) (cs : List (Bytes × Bytes)) (hx : ctx.length < 256) (hn : cs.length ≤ 32)
    (hc : ∀ c ∈ cs, c.1.length < 16777216 ∧ c.2.length < 65536)
    (hl : (cs.flatMap fun c => prefixed 3 c.1 ++ prefixed 2 c.2).length < 16777216) :
    opt (parseCertificate (prefixed 1 ctx ++ prefixed 3 (cs.flatMap fun c => prefixed 3 c.1 ++ prefixed 2 c.2)))
      = some ([], (ctx, cs.map (·.1))) := by
  have hp : (fun c : Bytes × Bytes => prefixed 3 c.1 ++ prefixed 2 c.2) = fun c => putVec 3 c.1 ++ putVec 2 c.2 := by
    funext c; rw [prefixed_eq, prefixed_eq]
  rw [hp] at hl ⊢
  rw [prefixed_eq, prefixed_eq]
  unfold parseCertificate
  rw [vec_putVec 1 _ _ (by omega)]
  simp only [PRes.bind_ok']
  rw [← List.append_nil (putVec 3 _), vec_putVec 3 _ _ (by omega)]
  simp only [PRes.bind_ok']
  have key : ∀ (cs : List (Bytes × Bytes)) (f : Nat) (acc : List Bytes), acc.length + cs.length ≤ 32 →
      (∀ c ∈ cs, c.1.length < 16777216 ∧ c.2.length < 65536) →
      (cs.flatMap fun c => putVec 3 c.1 ++ putVec 2 c.2).length ≤ f →
      loop parseCertEntry (pushIf 32 fun _ => true) f acc (cs.flatMap fun c => putVec 3 c.1 ++ putVec 2 c.2)
        = .ok [] (acc ++ cs.map (·.1)) := by
    intro cs
    induction cs with
    | nil => intro f acc _ _ _; cases f <;> simp [loop]
    | cons c cs ih =>
      intro f acc hacc hcs hf
      simp only [List.flatMap_cons, List.length_append, putVec_length] at hf
      match f with
      | 0 => omega
      | f + 1 =>
        rw [List.flatMap_cons]
        unfold loop
        rw [if_neg (by simp [putVec, beBytes]),
          entry_put _ _ _ (hcs c (by simp)).1 (hcs c (by simp)).2]
        simp only [PRes.bind_ok']
        have hlt : acc.length < 32 := by simp at hacc; omega
        simp only [pushIf, if_true, hlt]
        rw [ih f (acc ++ [c.1]) (by simp at hacc ⊢; omega) (fun x hx => hcs x (by simp [hx])) (by omega)]
        simp
  rw [key cs _ [] (by simpa using hn) hc (Nat.le_refl _)]
  rfl

/-- Certificate: the peer reads the context and the certificate of the configuration, and no other. -/
theorem certificate_sent (env : PEnv) (mtu : Nat) (cert : Bytes) (u : Bool) (s : Option Nat) (ctx : Bytes)
    (hx : ctx.length < 256) (hc : cert.length < 16777211) :
    parseBody (codec env mtu cert).toEnv u 11 s ((codec env mtu cert).certificateBody ctx)
      = some ([], .certificate ctx [cert]) := by
  have h := certificates_read ctx [(cert, [])] hx (by simp) (by simp; omega) (by
    simp only [List.flatMap_cons, List.flatMap_nil, List.append_nil, prefixed_eq, List.length_append, putVec_length,
      List.length_nil]
    omega)
  simp only [List.flatMap_cons, List.flatMap_nil, List.append_nil, prefixed_eq] at h
  have hb : (codec env mtu cert).certificateBody ctx = putVec 1 ctx ++ putVec 3 (putVec 3 cert ++ putVec 2 []) := by
    show putCertificate ctx [cert] = _
    simp [putCertificate]
  rw [hb]
  show (opt (parseCertificate _)).map _ = _
  rw [h]
  rfl

/-- CertificateVerify: the peer reads scheme and signature. -/
theorem certificate_verify_sent (env : PEnv) (mtu : Nat) (cert : Bytes) (u : Bool) (s : Option Nat) (alg : Nat)
    (sig : Bytes) (ha : alg < 65536) (hs : sig.length < 65536) :
    parseBody (codec env mtu cert).toEnv u 15 s (beBytes 2 alg ++ beBytes 2 sig.length ++ sig)
      = some ([], .certificateVerify alg sig) := by
  have h := parseSigned_put alg sig [] ha hs
  rw [List.append_nil] at h
  have hb : (beBytes 2 alg ++ beBytes 2 sig.length ++ sig : Bytes) = putSigned alg sig := by
    simp [putSigned, putVec]
  rw [hb]
  show (opt (parseSigned _)).map _ = _
  rw [h]
  rfl

theorem body_finished (env : E13.Env) (u : Bool) (s : Nat) (b : Bytes) :
    parseBody env u 20 (some s) b = (env.parseFinished s b).map fun (r, x) => (r, .finished x) := rfl

/-- Finished: the peer reads the verify data, which is as long as the hash of the suite. -/
theorem finished_sent (env : PEnv) (mtu : Nat) (cert : Bytes) (u : Bool) (suite : Nat) (vd : Bytes)
    (hs : suite ∈ [0x1301, 0x1302, 0x1303]) (hl : vd.length = if suite = 0x1302 then 48 else 32) :
    parseBody (codec env mtu cert).toEnv u 20 (some suite) vd = some ([], .finished vd) := by
  have hh : hashLen suite = vd.length := by
    rw [hl]
    simp at hs
    rcases hs with rfl | rfl | rfl <;> decide
  have h := take_append vd [] (hashLen suite) hh.symm
  rw [List.append_nil] at h
  rw [body_finished]
  show (opt (parseFinished suite vd)).map _ = _
  unfold parseFinished
  rw [h]
  rfl

/-- The CertificateRequest of the server: no context, and the signature schemes it can verify. -/
theorem cert_request_layout (env : PEnv) (mtu : Nat) (cert : Bytes) :
    (codec env mtu cert).certRequestBody =
      prefixed 1 [] ++ prefixed 2 (extension (13, prefixed 2 ([0x0403, 0x0503].flatMap (num 2)))) := by
  show certRequestBody = _
  decide +kernel

end Verif.Props.Msg13

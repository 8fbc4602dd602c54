import Verif.Props.Send12
import Verif.Props.Recv12
/-!
# Answering retransmissions, DTLS 1.2 (C62)
-/
namespace Verif.Props.Dupe12
open Verif Wire Window Timer Aead M E12 Props.Wire

/-! ## Statement -/

/-- A handshake message or a piece of one, as it is sent: record number, header, body. -/
structure Part where
  rcdSeq : Nat
  header : HsHeader
  body : Bytes

/-- It is in an unprotected record of its own. -/
def Part.record (p : Part) : Rec12 :=
  { ctype := 22, version := 0xFEFD, epoch := 0, seq := p.rcdSeq, length := (serializeHs p.header p.body).length,
    fragment := serializeHs p.header p.body }

/-- The fields have room for the values. -/
def Part.Fits (p : Part) : Prop :=
  p.rcdSeq < 2 ^ 48 ∧ WFHs p.header ∧ p.body.length = p.header.fragLen ∧ p.body.length < 60000

instance (p : Part) : Decidable p.Fits := by unfold Part.Fits; infer_instance

/-- A datagram with these. -/
def datagram (ps : List Part) : Bytes := (ps.map fun p => serialize12 p.record).flatten

/-- The beginning of a message that ends a flight or comes once in one: ClientHello, HelloVerifyRequest,
ServerHelloDone, ClientKeyExchange. -/
def Part.Asks (p : Part) : Prop := p.header.fragOff = 0 ∧ p.header.msgType ∈ [1, 3, 14, 16]

instance (p : Part) : Decidable p.Asks := by unfold Part.Asks; infer_instance

/-! ## Proof -/

def Part.rx (p : Part) : Rx :=
  { buffer := serialize12 p.record, rcd := p.record, hss := [{ header := p.header, body := p.body, handled := false }],
    handled := false, opened := false }

theorem Part.wf {p : Part} (h : p.Fits) : WF12 p.record := by
  obtain ⟨h1, h2, h3, h4⟩ := h
  refine ⟨.inr rfl, (by decide : 0 < 2 ^ 16), h1, rfl, ?_, fun _ => .inr (.inr rfl)⟩
  show (serializeHs p.header p.body).length < 2 ^ 16
  simp [serializeHs, serializeHsHeader]
  omega

theorem Part.parsed {p : Part} (h : p.Fits) : parsedRecord (serialize12 p.record) 0 false = .ok [] p.rx := by
  unfold parsedRecord
  have h1 := record12_roundtrip p.record [] (Part.wf h)
  rw [List.append_nil] at h1
  rw [h1, PRes.bind_ok']
  have h2 := handshakes_roundtrip 8 [(p.header, p.body)] (by simp) (by
    intro q hq; obtain rfl := List.mem_singleton.mp hq; exact ⟨h.2.1, h.2.2.1⟩)
  have h3 : parseHandshakes 8 p.record.fragment = p.rx.hss := by
    show parseHandshakes 8 (serializeHs p.header p.body) = _
    simp only [List.map_cons, List.map_nil, List.flatten_cons, List.flatten_nil, List.append_nil] at h2
    exact h2
  have h4 : p.record.ctype = ctHandshake := rfl
  rw [if_pos h4, h3]
  rfl

theorem parse_all (env : Env) (e : Eng) (ps : List Part) (h : ∀ p ∈ ps, p.Fits) :
    ∀ acc, acc.length + ps.length ≤ 8 →
      parseSlices env (ps.map fun p => serialize12 p.record) .done acc e = (.ok (acc ++ ps.map Part.rx), e) := by
  induction ps with
  | nil => intro acc _; simp [parseSlices, M.pure]
  | cons p ps ih =>
    intro acc hl
    simp only [List.map_cons, parseSlices]
    have h1 : recordParse env (serialize12 p.record) e = (.ok (some p.rx), e) := by
      unfold recordParse
      rw [Part.parsed (h p (by simp))]
      dsimp only
      rw [if_pos (.inl rfl)]
    simp only [M.bind, h1, M.andThen]
    simp only [List.length_cons] at hl
    rw [if_neg (by omega), ih (fun q hq => h q (by simp [hq])) _ (by simp; omega)]
    simp

theorem dupe_iff (p : Part) : p.rx.firstDupe = if p.Asks then some p.header.messageSeq else none := by
  show dupeTriggersResend p.header = _
  unfold dupeTriggersResend
  have ha : p.Asks ↔ p.header.fragOff = 0 ∧ p.header.msgType ∈ [1, 3, 14, 16] := Iff.rfl
  simp only [ha]
  by_cases h : p.header.fragOff = 0
  · rw [if_neg (by simpa using h)]
    simp only [h, true_and, Bool.or_eq_true, beq_iff_eq, List.mem_cons, List.not_mem_nil, or_false, or_assoc]
  · rw [if_pos h]; simp [h]

/-- What passes classification. -/
def passed (e : Eng) (ps : List Part) : List Part := if e.peerEnc then ps.filter (fun p => p.Asks) else ps

theorem classify_all (e : Eng) (ps : List Part) : ∀ acc,
    classifyAll (ps.map Part.rx) acc e = (.ok (acc ++ (passed e ps).map Part.rx), e) := by
  induction ps with
  | nil => intro acc; simp [classifyAll, M.pure, passed]
  | cons p ps ih =>
    intro acc
    simp only [List.map_cons, classifyAll]
    have hc : classify p.rx e = (.ok (if e.peerEnc = true ∧ ¬ p.Asks then none else some p.rx), e) := by
      have hct : p.rx.rcd.ctype = 22 := rfl
      unfold classify
      rw [hct]
      rw [if_neg (fun g => absurd g.1 (show (22 : UInt8) ≠ 20 by decide))]
      by_cases hp : e.peerEnc = true ∧ ¬ p.Asks
      · rw [if_pos ⟨rfl, rfl, hp.1, by rw [dupe_iff, if_neg hp.2]⟩, if_pos hp]
      · rw [if_neg, if_neg (show ¬ (22 : UInt8) = ctAlert by decide),
          if_neg (fun g => absurd g.2 (show ¬ (22 : UInt8) = ctAppData by decide)), if_neg hp]
        rintro ⟨_, _, h1, h2⟩
        refine hp ⟨h1, fun g => ?_⟩
        rw [dupe_iff, if_pos g] at h2
        cases h2
    simp only [M.bind, hc, M.andThen]
    by_cases hp : e.peerEnc = true ∧ ¬ p.Asks
    · rw [if_pos hp]
      dsimp only
      rw [ih]
      simp [passed, hp.1, hp.2]
    · rw [if_neg hp]
      dsimp only
      rw [ih]
      by_cases he : e.peerEnc = true
      · have : p.Asks := Classical.byContradiction fun g => hp ⟨he, g⟩
        simp [passed, he, this]
      · simp [passed, he]

theorem first_dupe {e : Eng} (ps : List Part) (ho : ∀ p ∈ ps, p.header.messageSeq < e.peerSeq) :
    (∃ d, firstDupeSeq (ps.map Part.rx) = some d ∧ d < e.peerSeq ∧ ∃ p ∈ ps, p.Asks) ∨
    (firstDupeSeq (ps.map Part.rx) = none ∧ ∀ p ∈ ps, ¬ p.Asks) := by
  unfold firstDupeSeq
  induction ps with
  | nil => exact .inr ⟨rfl, nofun⟩
  | cons p ps ih =>
    simp only [List.map_cons, List.findSome?_cons, dupe_iff]
    by_cases h : p.Asks
    · rw [if_pos h]
      exact .inl ⟨_, rfl, ho p (by simp), p, by simp, h⟩
    · rw [if_neg h]
      rcases ih (fun q hq => ho q (by simp [hq])) with ⟨d, h1, h2, q, h3, h4⟩ | ⟨h1, h2⟩
      · exact .inl ⟨d, h1, h2, q, by simp [h3], h4⟩
      · exact .inr ⟨h1, fun q hq => (List.mem_cons.mp hq).elim (fun g => g ▸ h) (h2 q)⟩

/-- **C62 (DTLS 1.2).** A datagram with handshake messages that were all taken before, sent again: if one of
them asks for an answer and the peer is not known to be done, the saved flight is sent again, once; otherwise
nothing happens. Nothing of the datagram is kept in either case. -/
theorem repeats_answered (env : Env) (e : Eng) (ps : List Part) (hf : ∀ p ∈ ps, p.Fits) (hn : ps.length ≤ 8)
    (ho : ∀ p ∈ ps, p.header.messageSeq < e.peerSeq) (hroom : e.rx.length < e.cfg.maxRx) :
    parsePacket env (datagram ps) e =
      if (∃ p ∈ ps, p.Asks) ∧ e.confirmed = false then flightResend env e else (.ok (), e) := by
  have hs : split12 (datagram ps) = (ps.map fun p => serialize12 p.record, .done) := by
    have := split12_concat (ps.map Part.record) (by
      intro r hr
      obtain ⟨p, hp, rfl⟩ := List.mem_map.mp hr
      exact (Part.wf (hf p hp)))
    simpa [datagram, List.map_map, Function.comp_def] using this
  unfold parsePacket recordsParse
  have hp : M.bind (parseSlices env (split12 (datagram ps)).1 (split12 (datagram ps)).2 []) (fun rs => classifyAll rs []) e =
      (.ok ((passed e ps).map Part.rx), e) := by
    rw [hs]
    simp only [M.bind, parse_all env e ps hf [] (by simpa using hn), M.andThen, List.nil_append, classify_all]
  rw [show ∀ (m : E (List Rx)) (f : List Rx → E Unit), M.bind m f e = M.andThen (m e) f from fun _ _ => rfl, hp]
  simp only [M.andThen]
  have hsub : ∀ p ∈ passed e ps, p ∈ ps := by
    intro p hp
    unfold passed at hp
    split at hp
    · exact (List.mem_filter.mp hp).1
    · exact hp
  have hasks : (∃ p ∈ ps, p.Asks) ↔ ∃ p ∈ passed e ps, p.Asks := by
    constructor
    · rintro ⟨p, h1, h2⟩
      refine ⟨p, ?_, h2⟩
      unfold passed
      split
      · exact List.mem_filter.mpr ⟨h1, by simpa using h2⟩
      · exact h1
    · rintro ⟨p, h1, h2⟩
      exact ⟨p, hsub p h1, h2⟩
  have hfd := first_dupe (passed e ps) (e := e) (fun p hp => ho p (hsub p hp))
  cases hq : passed e ps with
  | nil =>
    rw [if_neg]
    · rfl
    · rintro ⟨h, _⟩
      obtain ⟨p, h, _⟩ := hasks.mp h
      rw [hq] at h
      cases h
  | cons q qs =>
    have hm : (passed e ps).map Part.rx = q.rx :: qs.map Part.rx := by rw [hq]; rfl
    have hqo : q.header.messageSeq < e.peerSeq := ho q (hsub q (by rw [hq]; simp))
    have hii : insertIncoming env ((passed e ps).map Part.rx) e =
        M.bind (maybeResend env ((passed e ps).map Part.rx))
          (fun _ => insertHandshakeTail env ((passed e ps).map Part.rx)
            { header := q.header, body := q.body, handled := false } 0) e := by
      rw [hm]
      unfold insertIncoming
      rw [if_neg (by omega)]
      rfl
    simp only [List.map_cons]
    rw [hm] at hii
    refine hii.trans ?_
    rw [← hm]
    simp only [M.bind]
    unfold maybeResend
    have htail : ∀ s : Eng, s.peerSeq = e.peerSeq → insertHandshakeTail env ((passed e ps).map Part.rx)
            { header := q.header, body := q.body, handled := false } 0 s = (.ok (), s) := by
      intro s hs
      unfold insertHandshakeTail
      rw [if_pos (by rw [hs]; exact hqo)]
    rcases hfd with ⟨d, h1, h2, h3⟩ | ⟨h1, h2⟩
    · rw [h1]
      dsimp only
      by_cases hc : e.confirmed = false
      · rw [if_pos ⟨h2, hc⟩, if_pos ⟨hasks.mpr h3, hc⟩]
        have hk : (flightResend env e).2.peerSeq = e.peerSeq := by
          obtain ⟨_, _, _, _, _, _, _, h⟩ := flightResend_frame env e
          rw [h]
        rcases hr : flightResend env e with ⟨r, s⟩
        rw [hr] at hk
        cases r with
        | ok u => exact htail s hk
        | fail f => rfl
      · rw [if_neg (fun g => hc g.2), if_neg (fun g => hc g.2)]
        exact htail e rfl
    · rw [h1]
      dsimp only
      rw [if_neg (fun ⟨g, _⟩ => let ⟨p, g1, g2⟩ := hasks.mp g; h2 p g1 g2)]
      exact htail e rfl

/-- In terms of what is queued: the records of the saved flight, each with its type, epoch and content, as far
as there is room. -/
theorem repeats_queue (env : PEnv) (e : Eng) (ps : List Part) (hf : ∀ p ∈ ps, p.Fits) (hn : ps.length ≤ 8)
    (ho : ∀ p ∈ ps, p.header.messageSeq < e.peerSeq) (hroom : e.rx.length < e.cfg.maxRx)
    (ha : ∃ p ∈ ps, p.Asks) (hc : e.confirmed = false) :
    ∃ es, (parsePacket env.toEnv (datagram ps) e).2.log = es ++ e.log ∧
      ∃ sent rest, e.saved = sent ++ rest ∧
        Send12.contents es = sent.map (fun x => (x.ctype, Send12.wireEpoch x, x.fragment)) ∧
        ((parsePacket env.toEnv (datagram ps) e).1 = .ok () → rest = []) ∧
        (parsePacket env.toEnv (datagram ps) e).2.saved = e.saved := by
  rw [repeats_answered env.toEnv e ps hf hn ho hroom, if_pos ⟨ha, hc⟩]
  exact Send12.resend_same_content e

/-- The last flight of the toy client as the server gets it: ClientKeyExchange alone, and the ClientHello. -/
def repeated : List Part :=
  [⟨9, { msgType := 16, length := 1, messageSeq := 2, fragOff := 0, fragLen := 1 }, [1]⟩]

/-- The hypotheses are met by a server that has just reported Connected and has a flight to repeat; it sends
it again. A connected client does not answer. -/
theorem repeats_case :
    let s := (Demo.serverRun Demo.pskEnv []).2
    let c := (Demo.clientRun Demo.pskEnv []).2
    (∀ p ∈ repeated, p.Fits) ∧ (∀ p ∈ repeated, p.header.messageSeq < s.eng.peerSeq) ∧
    s.eng.rx.length < s.eng.cfg.maxRx ∧ (∃ p ∈ repeated, p.Asks) ∧ s.eng.confirmed = false ∧ s.eng.saved.length = 2 ∧
    s.eng.tx = [] ∧ (call S12.role Demo.pskEnv s (.packet (datagram repeated))).1 = .res .ok ∧
    (call S12.role Demo.pskEnv s (.packet (datagram repeated))).2.eng.tx.length = 1 ∧
    c.eng.confirmed = true := by decide +kernel

/-- A piece that is not the beginning asks for nothing, nor does a ServerHello. -/
example : ¬ (⟨1, { msgType := 16, length := 5, messageSeq := 2, fragOff := 1, fragLen := 1 }, [1]⟩ : Part).Asks ∧
    ¬ (⟨1, { msgType := 2, length := 1, messageSeq := 0, fragOff := 0, fragLen := 1 }, [1]⟩ : Part).Asks := by decide

end Verif.Props.Dupe12

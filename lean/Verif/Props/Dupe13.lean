import Verif.Props.Pair13
import Verif.Lemmas.Clock13
/-!
# Answering retransmissions, DTLS 1.3 (C62)
-/
namespace Verif.Props.Dupe13
open Verif Wire Window Timer Aead M E13 Props.Wire
open Verif.E12 (Call Ret)

/-! ## Statement -/

/-- A handshake message or a piece of one, as it is sent: record number, header, body. -/
structure Part where
  rcdSeq : Nat
  header : HsHeader
  body : Bytes

/-- It is in an unprotected record of its own. -/
def Part.record (p : Part) : Bytes :=
  serializePlain13 22 0 p.rcdSeq (serializeHs p.header p.body).length (serializeHs p.header p.body)

/-- The fields have room for the values. -/
def Part.Fits (p : Part) : Prop :=
  p.rcdSeq < 2 ^ 48 ∧ WFHs p.header ∧ p.body.length = p.header.fragLen ∧ p.body.length < 60000

instance (p : Part) : Decidable p.Fits := by unfold Part.Fits; infer_instance

/-- A datagram with these. -/
def datagram (ps : List Part) : Bytes := (ps.map Part.record).flatten

/-- The beginning of a message that ends a flight of the client or of either side: ClientHello, Finished. -/
def Asks (h : HsHeader) : Prop := h.fragOff = 0 ∧ h.msgType ∈ [1, 20]

instance (h : HsHeader) : Decidable (Asks h) := by unfold Asks; infer_instance

/-! ## Proof -/

theorem createPlain_ps (c sv f) (s : Eng) : (createPlain c sv f s).2.peerSeq = s.peerSeq := by
  refine createPlain_ind (motive := fun r => r.2.peerSeq = s.peerSeq) c sv f s (fun _ _ => rfl) (fun _ _ _ => rfl) ?_
  intro _ _ _
  unfold emitPlain pushWire savedAs
  split <;> split <;> rfl

theorem createCipher_ps {env : Env} (c ep sv f) (s : Eng) : (createCipher env c ep sv f s).2.peerSeq = s.peerSeq := by
  refine createCipher_ind (motive := fun r => r.2.peerSeq = s.peerSeq) env c ep sv f s (fun _ _ => rfl)
    (fun _ _ _ => rfl) (fun _ _ _ _ _ _ _ _ => rfl) ?_
  intro suite tag k ct _ _ _ _
  obtain ⟨a1, a2, a3, a4, a5, h1⟩ := countSent_eq (sealedSt (savedAs s sv (entryOf s c ep f)) k ep) (s.slot ep) ep
  unfold emitCipher
  dsimp only
  rw [h1]
  unfold pushWire savedAs
  split <;> split <;> rfl

theorem resendLoop_ps {env : Env} (l : List Entry) (s : Eng) : (resendLoop env l s).2.peerSeq = s.peerSeq := by
  have he : ∀ x (s : Eng), (resendEntry env x s).2.peerSeq = s.peerSeq := by
    intro x s
    unfold resendEntry
    split
    · rw [bind_snd]; split <;> exact createPlain_ps ..
    · rw [bind_snd]; split <;> exact createCipher_ps ..
  induction l generalizing s with
  | nil => rfl
  | cons x l ih =>
    unfold resendLoop
    split
    · rw [bind_snd]; split <;> exact ih s
    · rw [bind_snd]
      split
      · rw [bind_snd]; split <;> exact (ih _).trans (he x s)
      · exact he x s

theorem flightResend_ps {env : Env} (s : Eng) : (flightResend env s).2.peerSeq = s.peerSeq := by
  unfold flightResend
  rw [bind_snd]
  split <;> exact resendLoop_ps s.saved { s with saved := [], sealedDg := true }

theorem dupe_iff (h : HsHeader) : dupeTriggersResend h = if Asks h then some h.messageSeq else none := by
  unfold dupeTriggersResend
  have ha : Asks h ↔ h.fragOff = 0 ∧ h.msgType ∈ [1, 20] := Iff.rfl
  simp only [ha]
  by_cases h0 : h.fragOff = 0
  · rw [if_neg (by simpa using h0)]
    simp only [h0, true_and, Bool.or_eq_true, beq_iff_eq, List.mem_cons, List.not_mem_nil, or_false, mtClientHello, mtFinished]
  · rw [if_pos h0]; simp [h0]

def Part.rx (p : Part) : Rx :=
  { buffer := p.record
    rcd := { ctype := 22, epoch := 0, seq := p.rcdSeq, length := (serializeHs p.header p.body).length, headerLen := 13,
             fragment := serializeHs p.header p.body }
    hss := [{ header := p.header, body := p.body, handled := false }]
    handled := false, opened := false }

theorem Part.len {p : Part} (h : p.Fits) : (serializeHs p.header p.body).length < 2 ^ 16 := by
  obtain ⟨h1, h2, h3, h4⟩ := h
  simp [serializeHs, serializeHsHeader]
  omega

theorem Part.parsed (env : Env) (e : Eng) {p : Part} (h : p.Fits) : recordParse env p.record e = (.ok (some p.rx), e) := by
  unfold recordParse
  have hf : isCiphertextHeader (flagsOf p.record) = false := by
    have : flagsOf p.record = 22 := rfl
    rw [this]; decide
  have h1 := plain13_roundtrip 22 p.rcdSeq (serializeHs p.header p.body) [] (.inr (.inl rfl)) h.1 (Part.len h)
  rw [List.append_nil] at h1
  rw [hf]
  simp only [Bool.false_and, Bool.false_eq_true, if_false]
  have h1' : parse13 p.record = _ := h1
  rw [h1']
  dsimp only
  have h2 := handshakes_roundtrip 8 [(p.header, p.body)] (by simp) (by
    intro q hq; obtain rfl := List.mem_singleton.mp hq; exact ⟨h.2.1, h.2.2.1⟩)
  simp only [List.map_cons, List.map_nil, List.flatten_cons, List.flatten_nil, List.append_nil] at h2
  unfold plainRx recHss
  rw [if_pos (by rfl)]
  dsimp only
  rw [h2]
  rfl

theorem parse_all (env : Env) (e : Eng) (ps : List Part) (h : ∀ p ∈ ps, p.Fits) :
    ∀ acc, acc.length + ps.length ≤ 16 →
      parseSlices env (ps.map Part.record) .done acc e = (.ok (acc ++ ps.map Part.rx), e) := by
  induction ps with
  | nil => intro acc _; simp [parseSlices, M.pure]
  | cons p ps ih =>
    intro acc hl
    simp only [List.map_cons, parseSlices]
    simp only [M.bind, Part.parsed env e (h p (by simp)), M.andThen]
    simp only [List.length_cons] at hl
    rw [if_neg (by omega), ih (fun q hq => h q (by simp [hq])) _ (by simp; omega)]
    simp

theorem classify_all (env : Env) (e : Eng) (hcl : e.closeSeq = none) (ps : List Part) : ∀ acc,
    classifyAll env (ps.map Part.rx) acc e = (.ok (acc ++ ps.map Part.rx), e) := by
  induction ps with
  | nil => intro acc; simp [classifyAll, M.pure]
  | cons p ps ih =>
    intro acc
    simp only [List.map_cons, classifyAll]
    have hc : classify env p.rx e = (.ok (some p.rx), e) := by
      have hct : p.rx.rcd.ctype = 22 := rfl
      unfold classify afterClose
      rw [hcl, hct]
      rw [if_neg (by simp), if_neg (fun g => absurd g.2.2 (by decide)), if_neg (by decide), if_neg (by decide), if_neg (by decide)]
    simp only [M.bind, hc, M.andThen]
    rw [ih]
    simp

theorem first_dupe {e : Eng} (ps : List Part) (ho : ∀ p ∈ ps, p.header.messageSeq < e.peerSeq) :
    (∃ d, (ps.map Part.rx).findSome? Rx.firstDupe = some d ∧ d < e.peerSeq ∧ ∃ p ∈ ps, Asks p.header) ∨
    ((ps.map Part.rx).findSome? Rx.firstDupe = none ∧ ∀ p ∈ ps, ¬ Asks p.header) := by
  induction ps with
  | nil => exact .inr ⟨rfl, nofun⟩
  | cons p ps ih =>
    have hd : p.rx.firstDupe = if Asks p.header then some p.header.messageSeq else none := dupe_iff p.header
    simp only [List.map_cons, List.findSome?_cons, hd]
    by_cases h : Asks p.header
    · rw [if_pos h]
      exact .inl ⟨_, rfl, ho p (by simp), p, by simp, h⟩
    · rw [if_neg h]
      rcases ih (fun q hq => ho q (by simp [hq])) with ⟨d, h1, h2, q, h3, h4⟩ | ⟨h1, h2⟩
      · exact .inl ⟨d, h1, h2, q, by simp [h3], h4⟩
      · exact .inr ⟨h1, fun q hq => (List.mem_cons.mp hq).elim (fun g => g ▸ h) (h2 q)⟩

/-- **C62 (DTLS 1.3).** A datagram with unprotected handshake messages that were all taken before, sent again:
if one of them asks for an answer, what the peer has not acknowledged of the saved flight is sent again, once;
otherwise nothing happens. Nothing of the datagram is kept in either case. -/
theorem repeats_answered (env : Env) (e : Eng) (ps : List Part) (hf : ∀ p ∈ ps, p.Fits) (hn : ps.length ≤ 16)
    (ho : ∀ p ∈ ps, p.header.messageSeq < e.peerSeq) (hroom : e.rx.length < e.cfg.maxRx) (hcl : e.closeSeq = none) :
    parsePacket env (datagram ps) e =
      if ∃ p ∈ ps, Asks p.header then flightResend env e else (.ok (), e) := by
  have hs : split13 (datagram ps) = (ps.map Part.record, .done) := by
    have := split13_concat (ps.map fun p => Out13.plain 22 p.rcdSeq (serializeHs p.header p.body)) (by
      intro r hr
      obtain ⟨p, hp, rfl⟩ := List.mem_map.mp hr
      exact ⟨.inr (.inl rfl), Part.len (hf p hp)⟩) none
    simpa [datagram, List.map_map, Function.comp_def, Out13.bytes, show Part.record = fun p => serializePlain13 22 0 p.rcdSeq (serializeHs p.header p.body).length (serializeHs p.header p.body) from rfl] using this
  unfold parsePacket recordsParse
  have hp : M.bind (parseSlices env (split13 (datagram ps)).1 (split13 (datagram ps)).2 []) (fun rs => classifyAll env rs []) e =
      (.ok (ps.map Part.rx), e) := by
    rw [hs]
    simp only [M.bind, parse_all env e ps hf [] (by simpa using hn), M.andThen, List.nil_append, classify_all env e hcl]
  rw [show ∀ (m : E (List Rx)) (f : List Rx → E Unit), M.bind m f e = M.andThen (m e) f from fun _ _ => rfl, hp]
  simp only [M.andThen]
  have hfd := first_dupe ps ho
  cases hq : ps with
  | nil => rw [if_neg (by simp)]; rfl
  | cons q qs =>
    rw [← hq]
    have hm : ps.map Part.rx = q.rx :: qs.map Part.rx := by rw [hq]; rfl
    have hqo : q.header.messageSeq < e.peerSeq := ho q (by rw [hq]; simp)
    have hii : insertIncoming env (ps.map Part.rx) e =
        M.bind (maybeResend env (ps.map Part.rx))
          (fun _ => insertHandshakeTail env (ps.map Part.rx)
            { header := q.header, body := q.body, handled := false }) e := by
      rw [hm]
      unfold insertIncoming
      rw [if_neg (by omega)]
      rfl
    rw [hm] at hii ⊢
    refine hii.trans ?_
    rw [← hm]
    simp only [M.bind]
    unfold maybeResend
    have htail : ∀ s : Eng, s.peerSeq = e.peerSeq → insertHandshakeTail env (ps.map Part.rx)
            { header := q.header, body := q.body, handled := false } s = (.ok (), s) := by
      intro s hs
      unfold insertHandshakeTail
      rw [if_pos (by rw [hs]; exact hqo)]
    rcases hfd with ⟨d, h1, h2, h3⟩ | ⟨h1, h2⟩
    · rw [h1]
      dsimp only
      rw [if_pos h2, if_pos h3]
      have hk := flightResend_ps (env := env) e
      rcases hr : flightResend env e with ⟨r, s⟩
      rw [hr] at hk
      cases r with
      | ok u => exact htail s hk
      | fail f => rfl
    · rw [h1]
      dsimp only
      rw [if_neg (fun ⟨p, g1, g2⟩ => h2 p g1 g2)]
      exact htail e rfl

/-- In terms of what is queued: what the peer has not acknowledged of the saved flight, each record with its
type, epoch and content, as far as there is room. -/
theorem repeats_queue (env : PEnv) (e : Eng) (ps : List Part) (hf : ∀ p ∈ ps, p.Fits) (hn : ps.length ≤ 16)
    (ho : ∀ p ∈ ps, p.header.messageSeq < e.peerSeq) (hroom : e.rx.length < e.cfg.maxRx) (hcl : e.closeSeq = none)
    (ha : ∃ p ∈ ps, Asks p.header) :
    ∃ es, (parsePacket env.toEnv (datagram ps) e).2.log = es ++ e.log ∧
      (∃ sent rest, Send13.openItems e.saved = sent ++ rest ∧ Send13.SameItems (Send13.contents es) sent) ∧
      ((parsePacket env.toEnv (datagram ps) e).1 = .ok () →
        Send13.SameItems (Send13.contents es) (Send13.openItems e.saved)) := by
  rw [repeats_answered env.toEnv e ps hf hn ho hroom hcl, if_pos ha]
  obtain ⟨es, h1, h2, h3⟩ := Send13.resend_same_content (env := env) e
  exact ⟨es, h1, h2, fun h => (h3 h).2.2⟩

/-- **C62 (DTLS 1.3), protected.** The same for a protected record with one such message, as the client's or
server's Finished is sent again: the record number is noted as seen and the open flight is sent again. -/
theorem repeat_protected_answered {ea eb : Env} {T : Nat} (hm : Pair13.Matched ea eb T) {b : Eng} {suite : Nat}
    {k : Keys} {ep seq : Nat} {hd : HsHeader} {body c : Bytes} (h : Pair13.Ready b suite k ep seq)
    (ht : ea.suiteTag suite = some T)
    (hc : ea.enc k.key (nonceXor k.iv seq) (cipherHeader ep seq ((innerPlaintext 22 (serializeHs hd body)).length + T))
      (innerPlaintext 22 (serializeHs hd body)) = some c)
    (hw : WFHs hd) (hb : body.length = hd.fragLen) (hl : body.length + 13 + T < 65536)
    (hcl : b.closeSeq = none) (hroom : b.rx.length < b.cfg.maxRx) (ho : hd.messageSeq < b.peerSeq) :
    ∃ l, parsePacket eb (wireOf ea suite k ep seq c) b =
      if Asks hd then flightResend eb { b.replayUpdate ep seq with log := l }
      else (.ok (), { b.replayUpdate ep seq with log := l }) := by
  have hsl : (serializeHs hd body).length = 12 + body.length := by
    simp [serializeHs, serializeHsHeader]; omega
  obtain ⟨rx, b', g1, g2, g3, g4, g5, _, g6, g7, g8, g9⟩ := Pair13.open_wire hm h ht hc (by decide) (by omega)
  have h2 := handshakes_roundtrip 8 [(hd, body)] (by simp) (by
    intro q hq; obtain rfl := List.mem_singleton.mp hq; exact ⟨hw, hb⟩)
  simp only [List.map_cons, List.map_nil, List.flatten_cons, List.flatten_nil, List.append_nil] at h2
  rw [if_pos (by rfl), h2] at g8
  have hclen : c.length < 65536 := by
    rw [hm.sizes.enc _ _ _ _ _ hc]; simp [innerPlaintext]; omega
  obtain ⟨o, ho', hob⟩ := Pair13.wire_out ea suite k ep seq c hclen
  have hsp : split13 (wireOf ea suite k ep seq c) = ([wireOf ea suite k ep seq c], .done) := by
    have := Wire.split13_concat [o] (by simpa using ho') none
    simpa [hob] using this
  have hb' : b'.closeSeq = none ∧ b'.rx = b.rx ∧ b'.cfg = b.cfg ∧ b'.peerSeq = b.peerSeq := by
    rw [g9]
    unfold Eng.replayUpdate
    split <;> exact ⟨hcl, rfl, rfl, rfl⟩
  obtain ⟨q1, q2, q3, q4⟩ := hb'
  have hcls : classify eb rx b' = (.ok (some rx), b') := by
    unfold classify afterClose
    rw [q1, g2, g3]
    rw [if_neg (by simp), if_neg (fun g => absurd g.2.2 (by decide)), if_neg (by decide), if_neg (by decide), if_neg (by decide)]
  have hrp : recordsParse eb (wireOf ea suite k ep seq c) b = (.ok [rx], b') := by
    unfold recordsParse
    rw [hsp]
    simp only [M.bind, parseSlices, g1, M.andThen, List.length_nil]
    rw [if_neg (by decide)]
    simp only [classifyAll, M.bind, hcls, M.andThen, M.pure, List.nil_append]
  refine ⟨b'.log, ?_⟩
  have hbb : ({ b.replayUpdate ep seq with log := b'.log } : Eng) = b' := by rw [g9]
  rw [hbb]
  unfold parsePacket
  simp only [M.bind, hrp, M.andThen]
  unfold insertIncoming
  rw [if_neg (by rw [q2, q3]; omega)]
  dsimp only
  rw [g8]
  dsimp only
  simp only [M.bind]
  unfold maybeResend
  have hfd : [rx].findSome? Rx.firstDupe = if Asks hd then some hd.messageSeq else none := by
    have : rx.firstDupe = if Asks hd then some hd.messageSeq else none := by
      unfold Rx.firstDupe; rw [g8]; exact dupe_iff hd
    simp only [List.findSome?_cons, this, List.findSome?_nil]
    split <;> simp_all
  rw [hfd]
  have htail : ∀ s : Eng, s.peerSeq = b.peerSeq → insertHandshakeTail eb [rx]
      { header := hd, body := body, handled := false } s = (.ok (), s) := by
    intro s hs
    unfold insertHandshakeTail
    rw [if_pos (by rw [hs]; exact ho)]
  by_cases ha : Asks hd
  · rw [if_pos ha, if_pos ha]
    dsimp only
    rw [if_pos (by rw [q4]; exact ho)]
    have hk := flightResend_ps (env := eb) b'
    rcases hr : flightResend eb b' with ⟨r, s⟩
    rw [hr] at hk
    cases r with
    | ok u => exact htail s (hk.trans q4)
    | fail f => rfl
  · rw [if_neg ha, if_neg ha]
    exact htail b' q4

/-! ## Concrete cases -/

/-- The server of the toy handshake, connected; its ACK of the Finished is what it would send again. -/
def server : Ses SSt := (Demo.serverRun Demo.plainEnv []).2

/-- A ClientHello it has taken. -/
def hello : List Part :=
  [⟨7, { msgType := 1, length := 1, messageSeq := 0, fragOff := 0, fragLen := 1 }, [1]⟩]

theorem plain_case :
    (∀ p ∈ hello, p.Fits) ∧ (∀ p ∈ hello, p.header.messageSeq < server.eng.peerSeq) ∧
    server.eng.rx.length < server.eng.cfg.maxRx ∧ server.eng.closeSeq = none ∧ (∃ p ∈ hello, Asks p.header) ∧
    (Send13.openItems server.eng.saved).length = 1 ∧ server.eng.tx = [] ∧
    (parsePacket Demo.plainEnv.toEnv (datagram hello) server.eng).1 = .ok () ∧
    (parsePacket Demo.plainEnv.toEnv (datagram hello) server.eng).2.tx.length = 1 := by decide +kernel

/-- The header of the client's Finished. -/
def fin : HsHeader := { msgType := 20, length := 2, messageSeq := 1, fragOff := 0, fragLen := 2 }

theorem server_facts :
    server.eng.peerEnc = true ∧ server.eng.suite = some 0x1301 ∧
    server.eng.hsRecv.isSome = true ∧ server.eng.resolveEpoch 2 = 2 ∧ server.eng.hsExpected = 1 ∧
    server.eng.replayCheck 2 1 = true ∧ server.eng.closeSeq = none ∧ server.eng.rx = [] ∧ server.eng.cfg.maxRx = 30 ∧
    server.eng.peerSeq = 2 := by decide +kernel

/-- The Finished sent again under the next record number meets the hypotheses. -/
example : ∃ k c l, server.eng.hsRecv = some k ∧
    parsePacket Demo.plainEnv.toEnv (wireOf Demo.plainEnv.toEnv 0x1301 k 2 1 c) server.eng =
      flightResend Demo.plainEnv.toEnv { server.eng.replayUpdate 2 1 with log := l } := by
  obtain ⟨h1, h2, h3, h4, h5, h6, h7, h8, h9, h10⟩ := server_facts
  generalize server.eng = b at *
  obtain ⟨k, hk⟩ := Option.isSome_iff_exists.mp h3
  have hr : Pair13.Ready b 0x1301 k 2 1 :=
    ⟨⟨⟨h1, h2, hk, h4⟩, ⟨1, fun _ => h5, fun h => absurd rfl h, by decide, by decide⟩⟩, h6⟩
  obtain ⟨l, h⟩ := repeat_protected_answered (Pair13.matched_demo [29] false false) (hd := fin) (body := [5, 6]) hr
    (show Demo.plainEnv.suiteTag 0x1301 = some 1 from rfl) rfl (by decide) rfl (by decide) h7 (by rw [h8, h9]; decide)
    (by rw [h10]; decide)
  rw [if_pos (by decide)] at h
  exact ⟨k, _, l, hk, h⟩

/-- A piece that is not the beginning asks for nothing, nor does a ServerHello. -/
example : ¬ Asks { msgType := 1, length := 5, messageSeq := 2, fragOff := 1, fragLen := 1 } ∧
    ¬ Asks { msgType := 2, length := 1, messageSeq := 0, fragOff := 0, fragLen := 1 } := by decide

end Verif.Props.Dupe13

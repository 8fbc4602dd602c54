import Verif.Props.Recv12
import Verif.Props.Send12
import Verif.Lemmas.Frame12
/-!
# C67: application data between two connected DTLS 1.2 sessions

What one side seals the other side opens, and the data of a whole stream arrives as it was sent: the network
may lose, repeat and reorder the datagrams.
-/
namespace Verif.Props.Pair12
open Verif Wire E12 Window Aead M

/-- What is assumed of the AEAD of the two sides: what one seals the other opens, with `tag` bytes more. -/
structure Matched (ea eb : Env) (tag : Nat) : Prop where
  opens : ∀ k n a p c, ea.enc k n a p = some c → eb.dec k n a c = some p
  size : ∀ k n a p c, ea.enc k n a p = some c → c.length = p.length + tag
  rand : ∀ i n, (ea.rand i n).length = n

/-- The datagram `w` is one record of type `ct`, number `seq` of epoch 1 and content `d`, sealed under `key` and `iv`
with an explicit nonce of `expl` bytes. -/
def Sealed (env : Env) (expl : Nat) (key iv : Bytes) (ct : UInt8) (seq : Nat) (d w : Bytes) : Prop :=
  ∃ explicit nonce c, explicit.length = expl ∧ recordNonce expl iv explicit 1 seq = some nonce ∧
    env.enc key nonce (aad12 ct 1 seq d.length) d = some c ∧
    w = serialize12 { ctype := ct, version := verDtls12, epoch := 1, seq := seq, length := (explicit ++ c).length,
                      fragment := explicit ++ c }

/-- What the receiver needs to open records. -/
structure CanOpen (b : Eng) (n tag : Nat) (k iv : Bytes) : Prop where
  enc : b.peerEnc = true
  expl : b.explicitLen = n
  prot : b.minProt = n + tag
  key : b.peerKey = some (k, iv)

section
variable {ea eb : Env} {tag expl seq : Nat} {key iv d w : Bytes} {ct : UInt8} {b : Eng}

/-- A sealed record opens to its content. -/
theorem open_wire (hm : Matched ea eb tag) (hs : Sealed ea expl key iv ct seq d w) (hb : CanOpen b expl tag key iv)
    (hl : d.length + expl + tag < 65536) (hq : seq < 2 ^ 48) (hc : b.replay.check seq = true) :
    ∃ rx ev, recordParse eb w b = (.ok (some rx), { b with
        replay := b.replay.update seq, confirmed := if ct = ctAppData then true else b.confirmed, log := ev :: b.log }) ∧
      rx.rcd.ctype = ct ∧ rx.rcd.epoch = 1 ∧ rx.rcd.seq = seq ∧ rx.rcd.fragment = d ∧ rx.handled = false ∧ rx.opened = true ∧
      rx.hss = if ct = ctHandshake then parseHandshakes 8 d else [] := by
  obtain rfl := hb.expl
  obtain ⟨ex, nonce, c, h1, h2, h3, rfl⟩ := hs
  have hcl := hm.size _ _ _ _ _ h3
  generalize hr : ({ ctype := ct, version := verDtls12, epoch := 1, seq := seq, length := (ex ++ c).length,
                     fragment := ex ++ c } : Rec12) = r
  have hwf : Wire.WF12 r := by
    rw [← hr]
    refine ⟨.inr rfl, ?_, hq, rfl, ?_, ?_⟩
    · show 1 < 2 ^ 16; decide
    · show (ex ++ c).length < 2 ^ 16
      rw [List.length_append]; omega
    · intro h; cases h
  have h12 := Wire.record12_roundtrip r [] hwf
  rw [List.append_nil] at h12
  have hlen : (serialize12 r).length = 13 + b.explicitLen + (d.length + tag) := by
    rw [← hr]; simp [serialize12, h1, hcl]; omega
  have hdrop : (serialize12 r).drop 13 = ex ++ c := by
    rw [← hr]
    unfold serialize12
    dsimp only
    have : ∀ x : Bytes, ct :: (beBytes 2 verDtls12 ++ beBytes 2 1 ++ beBytes 6 seq ++ beBytes 2 (ex ++ c).length ++ x) =
        (ct :: (beBytes 2 verDtls12 ++ beBytes 2 1 ++ beBytes 6 seq ++ beBytes 2 (ex ++ c).length)) ++ x := fun x => by simp
    rw [this]
    exact List.drop_left' (by simp)
  have hex : ((serialize12 r).drop 13).take b.explicitLen = ex := by rw [hdrop]; exact List.take_left' h1
  have hci : (serialize12 r).drop (13 + b.explicitLen) = c := by
    rw [← List.drop_drop, hdrop]; exact List.drop_left' h1
  have haad : openAad b r = aad12 ct 1 seq d.length := by
    unfold openAad
    rw [← hr, hb.prot]
    dsimp only
    rw [List.length_append, h1, hcl]
    congr 1
    omega
  have hdec := hm.opens _ _ _ _ _ h3
  have hop : parsedRecord (openedBuffer (serialize12 r) b.explicitLen d) b.explicitLen true = .ok (c.drop d.length)
      { buffer := openedBuffer (serialize12 r) b.explicitLen d, rcd := { r with length := d.length, fragment := d },
        hss := if ct = ctHandshake then parseHandshakes 8 d else [], handled := false, opened := true } := by
    have hbuf : openedBuffer (serialize12 r) b.explicitLen d =
        r.ctype :: (beBytes 2 r.version ++ beBytes 2 r.epoch ++ beBytes 6 r.seq) ++ beBytes 2 d.length ++ ex ++ d
          ++ c.drop d.length := by
      unfold openedBuffer
      rw [hex, hci]
      congr 4
    have hparse := parse12_opened hwf (c.drop d.length) ex d _ h1 (by omega)
    rw [← hbuf] at hparse
    unfold parsedRecord
    rw [hparse]
    simp only [PRes.bind]
    rw [← hr]
  have hpar : parsedRecord (serialize12 r) 0 false = .ok []
      { buffer := serialize12 r, rcd := r, hss := if r.ctype = ctHandshake then parseHandshakes 8 r.fragment else [],
        handled := false, opened := false } := by
    unfold parsedRecord
    rw [h12]; rfl
  refine ⟨{ buffer := openedBuffer (serialize12 r) b.explicitLen d, rcd := { r with length := d.length, fragment := d },
            hss := if ct = ctHandshake then parseHandshakes 8 d else [], handled := false, opened := true },
    .opened key nonce (aad12 ct 1 seq d.length) c d ct 1 seq, ?_, ?_⟩
  · unfold recordParse
    rw [hpar]
    dsimp only
    have e1 : ¬ (r.epoch = 0 ∨ b.peerEnc = false) := by rw [← hr, hb.enc]; simp
    have e2 : r.seq = seq := by rw [← hr]
    have e3 : ¬ r.length < b.minProt := by
      rw [hb.prot, ← hr]; show ¬ (ex ++ c).length < _; rw [List.length_append]; omega
    have e4 : r.epoch = 1 := by rw [← hr]
    have e5 : r.ctype = ct := by rw [← hr]
    rw [if_neg e1]
    unfold openRecord
    rw [e2, hc, hb.key]
    simp only [Bool.not_true, Bool.false_eq_true, if_false]
    rw [if_neg e3]
    rw [if_neg (by rw [hlen]; omega), hex, e4, h2]
    dsimp only
    rw [haad, hci, hdec]
    dsimp only
    rw [hop]
    unfold noteOpened
    dsimp only
    rw [e2, e4, e5]
  · rw [← hr]
    exact ⟨rfl, rfl, rfl, rfl, rfl, rfl, rfl⟩

/-- A record that the replay window refuses leaves no trace. -/
theorem refuse_wire (hm : Matched ea eb tag) (hs : Sealed ea expl key iv ct seq d w) (hb : CanOpen b expl tag key iv)
    (hl : d.length + expl + tag < 65536) (hq : seq < 2 ^ 48) (hc : b.replay.check seq = false) :
    recordParse eb w b = (.ok none, b) := by
  obtain ⟨ex, nonce, c, h1, h2, h3, rfl⟩ := hs
  have hcl := hm.size _ _ _ _ _ h3
  have hwf : Wire.WF12 { ctype := ct, version := verDtls12, epoch := 1, seq := seq, length := (ex ++ c).length, fragment := ex ++ c } := by
    refine ⟨.inr rfl, ?_, hq, rfl, ?_, ?_⟩
    · show 1 < 2 ^ 16; decide
    · show (ex ++ c).length < 2 ^ 16
      rw [List.length_append]; omega
    · intro h; cases h
  have h12 := Wire.record12_roundtrip _ [] hwf
  rw [List.append_nil] at h12
  unfold recordParse parsedRecord
  rw [h12]
  simp only [PRes.bind]
  rw [if_neg (by rw [hb.enc]; simp)]
  unfold openRecord
  dsimp only
  rw [hc]
  rfl

theorem sealed_split (hm : Matched ea eb tag) (hs : Sealed ea expl key iv ct seq d w)
    (hl : d.length + expl + tag < 65536) (hq : seq < 2 ^ 48) : split12 w = ([w], .done) := by
  obtain ⟨ex, nonce, c, h1, h2, h3, rfl⟩ := hs
  have hcl := hm.size _ _ _ _ _ h3
  have := Wire.split12_concat [{ ctype := ct, version := verDtls12, epoch := 1, seq := seq, length := (ex ++ c).length, fragment := ex ++ c }]
    (by
      intro r hr
      rw [List.mem_singleton.mp hr]
      refine ⟨.inr rfl, ?_, hq, rfl, ?_, ?_⟩
      · show 1 < 2 ^ 16; decide
      · show (ex ++ c).length < 2 ^ 16
        rw [List.length_append]; omega
      · intro h; cases h)
  simpa using this

/-- The datagram at a receiver whose queue is empty. -/
theorem parse_fresh (hm : Matched ea eb tag) (hse : SearchOk eb.search) (hs : Sealed ea expl key iv ctAppData seq d w)
    (hb : CanOpen b expl tag key iv) (hl : d.length + expl + tag < 65536) (hq : seq < 2 ^ 48) (hc : b.replay.check seq = true)
    (hcl : b.closeRecv = false) (hrx : b.rx = []) (hroom : 0 < b.cfg.maxRx) :
    ∃ rx l, parsePacket eb w b = (.ok (), { b with
        replay := b.replay.update seq, confirmed := true, rx := [[rx]], tick := b.tick + 1, log := l }) ∧
      rx.rcd.ctype = ctAppData ∧ rx.rcd.fragment = d ∧ rx.hss = [] ∧ rx.handled = false := by
  obtain ⟨rx, ev, g1, g2, g3, g4, g5, g6, g7, g8⟩ := open_wire hm hs hb hl hq hc
  rw [if_neg (by decide)] at g8
  rw [if_pos rfl] at g1
  generalize hb' : ({ b with replay := b.replay.update seq, confirmed := true, log := ev :: b.log } : Eng) = b' at g1
  have q1 : b'.closeRecv = false ∧ b'.rx = [] ∧ b'.cfg = b.cfg ∧ b'.tick = b.tick ∧ b'.peerEnc = true := by
    rw [← hb']; exact ⟨hcl, hrx, rfl, rfl, hb.enc⟩
  obtain ⟨q1, q2, q3, q4, q5⟩ := q1
  have hcls : classify rx b' = (.ok (some rx), b') := by
    unfold classify
    rw [g2, q1, if_neg (fun h => absurd h.1 (by decide)), if_neg (fun h => absurd h.1 (by decide)), if_neg (by decide),
      if_neg (fun h => absurd h.1 (by decide))]
  have hrp : recordsParse eb w b = (.ok [rx], b') := by
    unfold recordsParse
    rw [sealed_split hm hs hl hq]
    simp only [M.bind, parseSlices, g1, M.andThen, List.length_nil]
    rw [if_neg (by decide)]
    simp only [classifyAll, M.bind, hcls, M.andThen, M.pure, List.nil_append]
  have hmark : ([rx].map markStaleHs) = [rx] := by
    show [markStaleHs rx] = [rx]
    unfold markStaleHs
    rw [if_neg (by rw [g3]; simp)]
  refine ⟨rx, b'.log, ?_, g2, g5, g8, g6⟩
  unfold parsePacket
  simp only [M.bind, hrp, M.andThen]
  unfold insertIncoming
  rw [if_neg (by rw [q2, q3]; simp; omega)]
  dsimp only
  rw [g8]
  dsimp only
  unfold insertNonHandshake
  rw [if_neg (by rw [g3]; simp), q5, if_pos rfl, hmark]
  unfold insertBySeq
  rw [q2]
  have hsr := hse b'.tick []
  cases hq : eb.search b'.tick [] with
  | at_ i => rw [hq] at hsr; simp at hsr
  | insertAt i =>
    rw [hq] at hsr
    have h0 : i = 0 := by simpa using hsr.1
    subst h0
    simp only [List.map_nil, hq]
    rw [← hb']
    rfl

theorem parse_stale (hm : Matched ea eb tag) (hs : Sealed ea expl key iv ct seq d w)
    (hb : CanOpen b expl tag key iv) (hl : d.length + expl + tag < 65536) (hq : seq < 2 ^ 48) (hc : b.replay.check seq = false) :
    parsePacket eb w b = (.ok (), b) := by
  have g1 := refuse_wire hm hs hb hl hq hc
  have hrp : recordsParse eb w b = (.ok [], b) := by
    unfold recordsParse
    rw [sealed_split hm hs hl hq]
    simp only [M.bind, parseSlices, g1, M.andThen, M.pure, classifyAll]
  unfold parsePacket
  simp only [M.bind, hrp, M.andThen]
  rfl

end

/-! ### Sessions -/

variable {A B : Role} {ea eb : PEnv} {T : Nat}

/-- A connected session that has nothing waiting and writes under `key` and `iv`. -/
structure Sender (a : Ses A.St) (n : Nat) (k iv : Bytes) : Prop where
  st : a.st = A.app
  events : a.events = []
  tx : a.eng.tx = []
  rx : a.eng.rx = []
  suite : a.eng.suite ≠ none
  expl : a.eng.explicitLen = n
  key : a.eng.writeKey = some (k, iv)
  iv : iv.length + n = 12
  room : 0 < a.eng.cfg.maxTx

/-- A connected session that has nothing waiting, reads under `key` and `iv` and has seen the record numbers
`seen`. -/
structure Receiver (b : Ses B.St) (n tag : Nat) (k iv : Bytes) (seen : List Nat) : Prop where
  st : b.st = B.app
  events : b.events = []
  queued : b.queued = []
  tx : b.eng.tx = []
  rx : b.eng.rx = []
  close : b.eng.closeRecv = false
  release : b.eng.release = true
  opens : CanOpen b.eng n tag k iv
  window : Rep b.eng.replay seen
  room : 0 < b.eng.cfg.maxRx

theorem poll_ev {R : Role} {env : PEnv} (s : Ses R.St) (e : Eng) (n : Nat) (h : s.events = []) :
    call R env { s with eng := e } (.poll n) =
      (.out (.eng (pollOutput n s.lastNow e).1), { s with eng := (pollOutput n s.lastNow e).2 }) := by
  show (Ret.out (pollM R n { s with eng := e }).1, (pollM R n { s with eng := e }).2) = _
  unfold pollM
  dsimp only
  rw [h]

/-- Sending and polling yields one sealed datagram. -/
theorem sender_step (hA : RoleOk A ea) (hm : Matched ea.toEnv eb.toEnv T) (henc : ∀ k n a p, (ea.enc k n a p).isSome)
    {a : Ses A.St} {expl : Nat} {k iv : Bytes} (hx : expl = 0 ∨ expl = 8) (h : Sender a expl k iv) (d : Bytes) (n : Nat)
    (hl : d.length + expl + T < 65536) (hn : 13 + d.length + expl + T ≤ n) :
    ∃ w a1 a2, Sealed ea.toEnv expl k iv ctAppData a.eng.seqN d w ∧ call A ea a (.send d) = (.res .ok, a1) ∧
      call A ea a1 (.poll n) = (.out (.eng (.packet w)), a2) ∧ Sender a2 expl k iv ∧
      a2.eng.seqN = a.eng.seqN + 1 := by
  have hexl : (explicitNonce ea.toEnv a.eng).length = expl := by
    unfold explicitNonce
    rw [h.expl]
    rcases hx with rfl | rfl
    · rfl
    · exact hm.rand _ _
  obtain ⟨nonce, hnonce⟩ : ∃ x, recordNonce expl iv (explicitNonce ea.toEnv a.eng) 1 a.eng.seqN = some x := by
    have hiv := h.iv
    unfold recordNonce
    rcases hx with rfl | rfl
    · rw [if_pos rfl, if_pos (by omega)]; exact ⟨_, rfl⟩
    · rw [if_neg (by decide)]
      unfold nonceNew
      rw [if_pos (by omega)]; exact ⟨_, rfl⟩
  obtain ⟨c, hc⟩ : ∃ c, ea.enc k nonce (aad12 ctAppData 1 a.eng.seqN d.length) d = some c :=
    Option.isSome_iff_exists.mp (henc _ _ _ _)
  have hcl := hm.size _ _ _ _ _ hc
  have hmod : d.length % 65536 = d.length := Nat.mod_eq_of_lt (by omega)
  have hmod2 : (explicitNonce ea.toEnv a.eng ++ c).length % 65536 = (explicitNonce ea.toEnv a.eng ++ c).length :=
    Nat.mod_eq_of_lt (by rw [List.length_append]; omega)
  generalize hw : serialize12 { ctype := ctAppData, version := verDtls12, epoch := 1, seq := a.eng.seqN,
                                length := (explicitNonce ea.toEnv a.eng ++ c).length,
                                fragment := explicitNonce ea.toEnv a.eng ++ c } = w
  have hwl : w.length ≤ n := by
    rw [← hw]; simp [serialize12, hcl]; omega
  have hsend : ∃ l, createRecord ea.toEnv ctAppData 1 false false d a.eng =
      (.ok (), { a.eng with tx := [w], seqN := a.eng.seqN + 1, tick := a.eng.tick + 1, log := l }) := by
    refine ⟨.queued ctAppData 1 a.eng.seqN d :: .sealed k nonce ctAppData 1 a.eng.seqN :: a.eng.log, ?_⟩
    unfold createRecord
    rw [if_neg (fun g => h.suite g.2)]
    unfold saveEntry
    simp only [Bool.false_eq_true, if_false]
    have hca : ∀ x, canAppend a.eng false x = false := by intro x; unfold canAppend; rw [h.tx]; rfl
    rw [hca, h.tx]
    have hroom := h.room
    rw [if_neg (by simp; omega), if_pos (Nat.le_refl 1)]
    unfold sealRecord
    rw [h.key]
    dsimp only
    rw [if_neg (by rw [h.expl]; omega), h.expl, hnonce]
    dsimp only
    rw [hmod, hc]
    dsimp only
    unfold emitRecord
    dsimp only
    rw [hmod2, h.tx]
    simp only [Nat.succ_ne_zero, if_false, pushWire, Bool.false_eq_true, List.nil_append, hw]
  obtain ⟨l, hsend⟩ := hsend
  generalize he : ({ a.eng with tx := [w], seqN := a.eng.seqN + 1, tick := a.eng.tick + 1, log := l } : Eng) = e at hsend
  have hrx : e.rx = [] := by rw [← he]; exact h.rx
  have htx : e.tx = [w] := by rw [← he]
  have hpur : purge e = e := by
    unfold purge
    rw [hrx]
    cases e
    simp only at hrx
    subst hrx
    rfl
  have hpoll : pollOutput n a.lastNow e = (.packet w, { e with tx := [], log := .sent w :: e.log }) := by
    have hna : nextApp e = none := by unfold nextApp; rw [hrx]; rfl
    have hrest : pollRest n a.lastNow e = (.packet w, { e with tx := [], log := .sent w :: e.log }) := by
      unfold pollRest
      rw [htx]
      dsimp only
      rw [if_neg (by omega)]
    unfold pollOutput
    dsimp only
    rw [hpur, hna]
    dsimp only
    rw [hrest]
    split <;> rfl
  refine ⟨w, { a with eng := e }, { a with eng := (pollOutput n a.lastNow e).2 },
    ⟨_, nonce, c, hexl, hnonce, hc, hw.symm⟩, ?_, ?_, ?_⟩
  · rw [Send12.send_app a h.st hA.ne, hsend]
    rfl
  · rw [poll_ev a e n h.events, hpoll]
  · rw [hpoll, ← he]
    exact ⟨⟨h.st, h.events, rfl, h.rx, h.suite, h.expl, h.key, h.iv, h.room⟩, rfl⟩

theorem progress_idle {env : PEnv} (hR : RoleOk B env) (s : Ses B.St) (hst : s.st = B.app) (hc : s.eng.closeRecv = false)
    (hq : s.queued = []) : progress B env progressFuel s = (.ok (), s) := by
  have h1 : B.step env s.st s = (.ok s.st, s) := by
    rw [hst, hR.app]
    unfold awaitApplicationData
    simp only [bind_eq, M.bind, M.get, M.andThen, hc]
    simp only [Bool.false_eq_true, if_false, drainQueued, bind_eq, M.bind, M.get, M.set, M.andThen, hq, drainLoop]
    cases s
    simp only at hq
    subst hq
    rfl
  show progress B env (39 + 1) s = _
  unfold progress
  simp only [M.get, M.andThen, bind_eq, M.bind, h1, if_true]
  rfl

/-- Nothing waits: polling asks to wait and changes nothing. -/
theorem poll_idle (n now : Nat) {e : Eng} (h1 : e.rx = []) (h2 : e.tx = []) (h3 : e.closeRecv = false) :
    pollOutput n now e = (.timeout (e.timers.poll now), e) := by
  have hpur : purge e = e := by
    unfold purge
    rw [h1]
    cases e
    simp only at h1
    subst h1
    rfl
  have hna : nextApp e = none := by unfold nextApp; rw [h1]; rfl
  have hrest : pollRest n now e = (.timeout (e.timers.poll now), e) := by
    unfold pollRest
    rw [h2]
    dsimp only
    rw [if_neg (by rw [h3]; simp)]
  unfold pollOutput
  dsimp only
  rw [hpur, hna]
  dsimp only
  rw [hrest]
  split <;> rfl

/-- The receiver takes a record whose number the window accepts, hands out its content and has nothing left. -/
theorem receiver_step (hR : RoleOk B eb) (hm : Matched ea.toEnv eb.toEnv T) (hse : SearchOk eb.search) {b : Ses B.St}
    {expl seq : Nat} {k iv d w : Bytes} {seen : List Nat} (h : Receiver b expl T k iv seen)
    (hs : Sealed ea.toEnv expl k iv ctAppData seq d w) (hl : d.length + expl + T < 65536) (hq : seq < 2 ^ 48)
    (h1 : seq ∉ seen) (h2 : ∀ m ∈ seen, m ≤ seq + 63) (n : Nat) (hn : d.length ≤ n) :
    ∃ b1 b2 b3 t, call B eb b (.packet w) = (.res .ok, b1) ∧ call B eb b1 (.poll n) = (.out (.eng (.appData d)), b2) ∧
      call B eb b2 (.poll n) = (.out (.eng (.timeout t)), b3) ∧ Receiver b3 expl T k iv (seq :: seen) := by
  obtain ⟨rx, l, hp, g2, g5, g8, g7⟩ := parse_fresh hm hse hs h.opens hl hq ((check_iff h.window seq).2 ⟨h1, h2⟩)
    h.close h.rx h.room
  have hhand : rx.isHandled = false := by unfold Rx.isHandled; rw [g8]; exact g7
  generalize he1 : ({ b.eng with
    replay := b.eng.replay.update seq, confirmed := true, rx := [[rx]], tick := b.eng.tick + 1, log := l } : Eng) = e1 at hp
  have hrx1 : e1.rx = [[rx]] := by rw [← he1]
  have hfix : e1.release = true ∧ e1.tx = [] ∧ e1.closeRecv = false := by
    rw [← he1]; exact ⟨h.release, h.tx, h.close⟩
  have hprog : progress B eb progressFuel { b with eng := e1 } = (.ok (), { b with eng := e1 }) :=
    progress_idle hR { b with eng := e1 } h.st hfix.2.2 h.queued
  have hcall : call B eb b (.packet w) = (.res .ok, { b with eng := e1 }) := by
    rw [Recv12.call_packet b w, hp]
    dsimp only
    rw [hprog]
    rfl
  have hpur : purge e1 = e1 := by
    unfold purge
    rw [hrx1]
    have : (([[rx]] : List (List Rx)).dropWhile fun i => i.all (·.isHandled)) = [[rx]] := by simp [hhand]
    rw [this, ← hrx1]
  have hnext : nextApp e1 = some rx := by
    unfold nextApp
    rw [hrx1]
    simp [g2, hhand]
  have hpoll1 : pollOutput n b.lastNow e1 = (.appData d,
      { e1 with rx := [[{ rx with handled := true }]], log := .delivered rx.rcd rx.opened :: e1.log }) := by
    unfold pollOutput
    dsimp only
    rw [hpur, if_pos hfix.1, hnext]
    dsimp only
    rw [g5, if_neg (by omega), hrx1]
    have : markApp [[rx]] = [[{ rx with handled := true }]] := by
      unfold markApp markAppRec
      simp [g2, hhand]
    rw [this]
  generalize he2 : ({ e1 with rx := [[{ rx with handled := true }]], log := .delivered rx.rcd rx.opened :: e1.log } : Eng)
    = e2 at hpoll1
  have hrx2 : e2.rx = [[{ rx with handled := true }]] := by rw [← he2]
  have hpur2 : purge e2 = { e2 with rx := [] } := by
    unfold purge
    rw [hrx2]
    simp [Rx.isHandled, g8]
  have hpoll2 : pollOutput n b.lastNow e2 = (.timeout (e2.timers.poll b.lastNow), { e2 with rx := [] }) := by
    have := poll_idle n b.lastNow (e := { e2 with rx := [] }) rfl (by rw [← he2]; exact hfix.2.1)
      (by rw [← he2]; exact hfix.2.2)
    rw [← this]
    unfold pollOutput
    dsimp only
    rw [hpur2]
    rfl
  refine ⟨{ b with eng := e1 }, { b with eng := e2 }, { b with eng := { e2 with rx := [] } },
    e2.timers.poll b.lastNow, hcall, ?_, ?_, ?_⟩
  · rw [poll_ev b e1 n h.events, hpoll1]
  · rw [poll_ev b e2 n h.events, hpoll2]
  · rw [← he2, ← he1]
    exact ⟨h.st, h.events, h.queued, h.tx, rfl, h.close, h.release,
      ⟨h.opens.enc, h.opens.expl, h.opens.prot, h.opens.key⟩, rep_update h.window seq, h.room⟩

/-- A record whose number the window refuses is dropped without a word. -/
theorem receiver_stale (hR : RoleOk B eb) (hm : Matched ea.toEnv eb.toEnv T) {b : Ses B.St}
    {expl seq : Nat} {k iv d w : Bytes} {seen : List Nat} (h : Receiver b expl T k iv seen)
    (hs : Sealed ea.toEnv expl k iv ctAppData seq d w) (hl : d.length + expl + T < 65536) (hq : seq < 2 ^ 48)
    (h1 : seq ∈ seen ∨ ∃ m ∈ seen, seq + 63 < m) (n : Nat) :
    ∃ t, call B eb b (.packet w) = (.res .ok, b) ∧ call B eb b (.poll n) = (.out (.eng (.timeout t)), b) := by
  have hc : b.eng.replay.check seq = false := by
    rw [← Bool.not_eq_true, check_iff h.window seq]
    rintro ⟨g1, g2⟩
    rcases h1 with h1 | ⟨m, h1, h2⟩
    · exact g1 h1
    · have := g2 m h1; omega
  have hp := parse_stale hm hs h.opens hl hq hc
  refine ⟨b.eng.timers.poll b.lastNow, ?_, ?_⟩
  · rw [Recv12.call_packet b w, hp]
    dsimp only
    rw [progress_idle hR b h.st h.close h.queued]
    rfl
  · have := poll_ev (R := B) (env := eb) b b.eng n h.events
    rw [poll_idle n b.lastNow h.rx h.tx h.close] at this
    exact this

/-! ### A whole stream -/

/-- `a` sends the payloads and polls once for each. The result is the datagrams. -/
def sent (A : Role) (ea : PEnv) (n : Nat) : Ses A.St → List Bytes → List Bytes
  | _, [] => []
  | a, d :: rest =>
    let o := call A ea (call A ea a (.send d)).2 (.poll n)
    (match o.1 with | .out (.eng (.packet p)) => p | _ => []) :: sent A ea n o.2 rest

/-- `b` is given the datagrams and polls twice after each. The result is the application data it was handed. -/
def received (B : Role) (eb : PEnv) (n : Nat) : Ses B.St → List Bytes → List Bytes
  | _, [] => []
  | b, p :: rest =>
    let b1 := (call B eb b (.packet p)).2
    let b2 := call B eb b1 (.poll n)
    let b3 := call B eb b2.2 (.poll n)
    ([b2.1, b3.1].filterMap fun | .out (.eng (.appData x)) => some x | _ => none) ++ received B eb n b3.2 rest

/-- What should come out when the payloads with these places in `data` arrive, in this order: each at its first arrival,
unless one that was sent 64 places later or more came before it. -/
def wanted (data : List Bytes) : List Nat → List Nat → List Bytes
  | _, [] => []
  | seen, i :: rest =>
    if i ∈ seen ∨ ∃ m ∈ seen, i + 63 < m then wanted data seen rest
    else data.getD i [] :: wanted data (i :: seen) rest

/-- The datagrams of a stream: one for each payload, numbered from the sender's next number. -/
theorem sent_sealed (hA : RoleOk A ea) (hm : Matched ea.toEnv eb.toEnv T) (henc : ∀ k n a p, (ea.enc k n a p).isSome)
    {expl : Nat} {k iv : Bytes} (hx : expl = 0 ∨ expl = 8) (n : Nat) (data : List Bytes)
    (hl : ∀ d ∈ data, d.length + expl + T < 65536 ∧ 13 + d.length + expl + T ≤ n) :
    ∀ a : Ses A.St, Sender a expl k iv → ∀ i, i < data.length →
      Sealed ea.toEnv expl k iv ctAppData (a.eng.seqN + i) (data.getD i []) ((sent A ea n a data).getD i []) := by
  induction data with
  | nil => intro a _ i hi; cases hi
  | cons d data ih =>
    intro a ha i hi
    obtain ⟨h1, h2⟩ := hl d (by simp)
    obtain ⟨w, a1, a2, g1, g2, g3, g4, g5⟩ := sender_step hA hm henc hx ha d n h1 h2
    unfold sent
    rw [g2]
    dsimp only
    rw [g3]
    dsimp only
    cases i with
    | zero => exact g1
    | succ i =>
      have := ih (fun x hx => hl x (by simp [hx])) a2 g4 i (by simpa using hi)
      rw [g5, show a.eng.seqN + 1 + i = a.eng.seqN + (i + 1) by omega] at this
      exact this

theorem received_wanted (hB : RoleOk B eb) (hm : Matched ea.toEnv eb.toEnv T) (hse : SearchOk eb.search) {expl : Nat}
    {k iv : Bytes} (n base : Nat) (data ws : List Bytes)
    (hl : ∀ d ∈ data, d.length + expl + T < 65536 ∧ 13 + d.length + expl + T ≤ n) (hlen : base + data.length < 2 ^ 48)
    (hw : ∀ i, i < data.length → Sealed ea.toEnv expl k iv ctAppData (base + i) (data.getD i []) (ws.getD i []))
    (old : List Nat) (hold : ∀ m ∈ old, m < base) (arr : List Nat) (harr : ∀ i ∈ arr, i < data.length) :
    ∀ (b : Ses B.St) (seen : List Nat), Receiver b expl T k iv (seen.map (base + ·) ++ old) →
      received B eb n b (arr.map fun i => ws.getD i []) = wanted data seen arr := by
  induction arr with
  | nil => intro b seen _; rfl
  | cons i arr ih =>
    intro b seen hb
    have ih := ih fun j hj => harr j (by simp [hj])
    have hi := harr i (by simp)
    have hmem : data.getD i [] ∈ data := by
      rw [List.getD_eq_getElem?_getD, List.getElem?_eq_getElem hi]
      exact List.getElem_mem hi
    obtain ⟨h1, h2⟩ := hl _ hmem
    rw [List.map_cons]
    unfold received wanted
    by_cases hst : i ∈ seen ∨ ∃ m ∈ seen, i + 63 < m
    · rw [if_pos hst]
      obtain ⟨t, g1, g2⟩ := receiver_stale hB hm hb (hw i hi) h1 (by omega) (by
        rcases hst with g | ⟨m, g, g'⟩
        · exact .inl (by simp [g])
        · exact .inr ⟨base + m, by simp [g], by omega⟩) n
      rw [g1]
      dsimp only
      rw [g2]
      dsimp only
      rw [g2]
      dsimp only
      rw [ih b seen hb]
      rfl
    · rw [if_neg hst]
      obtain ⟨b1, b2, b3, t, g1, g2, g3, g4⟩ := receiver_step hB hm hse hb (hw i hi) h1 (by omega)
        (by
          intro g
          rcases List.mem_append.mp g with g | g
          · obtain ⟨m, g, g'⟩ := List.mem_map.mp g
            exact hst (.inl (by rw [show i = m by omega]; exact g))
          · have := hold _ g; omega)
        (by
          intro m g
          rcases List.mem_append.mp g with g | g
          · obtain ⟨m', g, g'⟩ := List.mem_map.mp g
            by_cases hm' : i + 63 < m'
            · exact absurd (.inr ⟨m', g, hm'⟩) hst
            · omega
          · have := hold _ g; omega) n (by omega)
      rw [g1]
      dsimp only
      rw [g2]
      dsimp only
      rw [g3]
      dsimp only
      rw [ih b3 (i :: seen) g4]
      rfl

/-- **C67.** Between two connected DTLS 1.2 sessions that hold the same key for this direction, over a network that
loses, repeats and reorders datagrams at will: the application is handed every payload one of whose datagrams
arrives, exactly as it was sent, once, at its first arrival - unless a payload sent 64 places later or more
arrived before it - and nothing else. -/
theorem stream_delivered (hA : RoleOk A ea) (hB : RoleOk B eb) (hm : Matched ea.toEnv eb.toEnv T)
    (henc : ∀ k n a p, (ea.enc k n a p).isSome) (hse : SearchOk eb.search) {expl : Nat} {k iv : Bytes}
    (hx : expl = 0 ∨ expl = 8) {a : Ses A.St} {b : Ses B.St} {old : List Nat} (ha : Sender a expl k iv)
    (hb : Receiver b expl T k iv old) (hold : ∀ m ∈ old, m < a.eng.seqN) (n : Nat) (data : List Bytes)
    (hl : ∀ d ∈ data, d.length + expl + T < 65536 ∧ 13 + d.length + expl + T ≤ n)
    (hlen : a.eng.seqN + data.length < 2 ^ 48) (arr : List Nat) (harr : ∀ i ∈ arr, i < data.length) :
    received B eb n b (arr.map fun i => (sent A ea n a data).getD i []) = wanted data [] arr :=
  received_wanted hB hm hse n a.eng.seqN data _ hl hlen (sent_sealed hA hm henc hx n data hl a ha) old hold arr harr b []
    (by simpa using hb)

theorem wanted_in_order (data : List Bytes) (arr seen : List Nat) (hs : arr.Pairwise (· < ·))
    (h : ∀ m ∈ seen, ∀ i ∈ arr, m < i) : wanted data seen arr = arr.map fun i => data.getD i [] := by
  induction arr generalizing seen with
  | nil => rfl
  | cons i arr ih =>
    obtain ⟨h1, h2⟩ := List.pairwise_cons.mp hs
    unfold wanted
    rw [if_neg, ih (i :: seen) h2]
    · rfl
    · intro m hm j hj
      rcases List.mem_cons.mp hm with rfl | hm
      · exact h1 j hj
      · exact h m hm j (by simp [hj])
    · rintro (g | ⟨m, g, g'⟩)
      · exact absurd (h i g i (by simp)) (by omega)
      · have := h m g i (by simp); omega

/-- Without reordering and repetition, what arrives is delivered, whatever is lost. -/
theorem lossy_delivered (hA : RoleOk A ea) (hB : RoleOk B eb) (hm : Matched ea.toEnv eb.toEnv T)
    (henc : ∀ k n a p, (ea.enc k n a p).isSome) (hse : SearchOk eb.search) {expl : Nat} {k iv : Bytes}
    (hx : expl = 0 ∨ expl = 8) {a : Ses A.St} {b : Ses B.St} {old : List Nat} (ha : Sender a expl k iv)
    (hb : Receiver b expl T k iv old) (hold : ∀ m ∈ old, m < a.eng.seqN) (n : Nat) (data : List Bytes)
    (hl : ∀ d ∈ data, d.length + expl + T < 65536 ∧ 13 + d.length + expl + T ≤ n)
    (hlen : a.eng.seqN + data.length < 2 ^ 48) (arr : List Nat) (harr : ∀ i ∈ arr, i < data.length)
    (hs : arr.Pairwise (· < ·)) :
    received B eb n b (arr.map fun i => (sent A ea n a data).getD i []) = arr.map fun i => data.getD i [] := by
  rw [stream_delivered hA hB hm henc hse hx ha hb hold n data hl hlen arr harr, wanted_in_order data arr [] hs (by simp)]

/-! ### The hypotheses are met -/

theorem matched_demo (a : Auth) (l : List Nat) (c r : Bool) : Matched (Demo.env a l c r).toEnv (Demo.env a l c r).toEnv 1 where
  opens k n a p c h := by
    simp only [Demo.env, Demo.baseEnv, Option.some.injEq] at h ⊢
    subst h
    simp
  size := (Send12.sizes_demo a l c r).enc
  rand := (Send12.sizes_demo a l c r).rand

def demoClient : Ses CSt := (Demo.clientRun Demo.pskEnv [.poll 2000]).2
def demoServer : Ses SSt := (Demo.serverRun Demo.pskEnv [.poll 2000]).2

theorem demo_facts :
    (demoClient.st = .awaitApplicationData ∧ demoClient.events = [] ∧ demoClient.queued = [] ∧ demoClient.eng.tx = [] ∧
      demoClient.eng.rx = [] ∧ demoClient.eng.suite = some 0xC0A8 ∧ demoClient.eng.explicitLen = 8 ∧
      demoClient.eng.minProt = 9 ∧ demoClient.eng.writeKey = some ([183], [1, 1, 1, 1]) ∧
      demoClient.eng.peerKey = some ([184], [2, 2, 2, 2]) ∧ demoClient.eng.peerEnc = true ∧
      demoClient.eng.release = true ∧ demoClient.eng.closeRecv = false ∧ demoClient.eng.seqN = 1 ∧
      demoClient.eng.replay = ReplayWindow.new.update 0 ∧ demoClient.eng.cfg.maxTx = 10 ∧ demoClient.eng.cfg.maxRx = 30) ∧
    (demoServer.st = .awaitApplicationData ∧ demoServer.events = [] ∧ demoServer.queued = [] ∧ demoServer.eng.tx = [] ∧
      demoServer.eng.rx = [] ∧ demoServer.eng.suite = some 0xC0A8 ∧ demoServer.eng.explicitLen = 8 ∧
      demoServer.eng.minProt = 9 ∧ demoServer.eng.writeKey = some ([184], [2, 2, 2, 2]) ∧
      demoServer.eng.peerKey = some ([183], [1, 1, 1, 1]) ∧ demoServer.eng.peerEnc = true ∧
      demoServer.eng.release = true ∧ demoServer.eng.closeRecv = false ∧ demoServer.eng.seqN = 1 ∧
      demoServer.eng.replay = ReplayWindow.new.update 0 ∧ demoServer.eng.cfg.maxTx = 10 ∧ demoServer.eng.cfg.maxRx = 30) := by
  decide +kernel

attribute [local irreducible] demoClient demoServer sent received

theorem demo_client : Sender (A := C12.role) demoClient 8 [183] [1, 1, 1, 1] ∧
    Receiver (B := C12.role) demoClient 8 1 [184] [2, 2, 2, 2] [0] := by
  obtain ⟨⟨h1, h2, h3, h4, h5, h6, h7, h8, h9, h10, h11, h12, h13, h14, h15, h16, h17⟩, _⟩ := demo_facts
  exact ⟨⟨h1, h2, h4, h5, by rw [h6]; simp, h7, h9, rfl, by omega⟩,
    ⟨h1, h2, h3, h4, h5, h13, h12, ⟨h11, h7, h8, h10⟩, by rw [h15]; exact rep_update rep_new 0, by omega⟩⟩

theorem demo_server : Sender (A := S12.role) demoServer 8 [184] [2, 2, 2, 2] ∧
    Receiver (B := S12.role) demoServer 8 1 [183] [1, 1, 1, 1] [0] := by
  obtain ⟨_, h1, h2, h3, h4, h5, h6, h7, h8, h9, h10, h11, h12, h13, h14, h15, h16, h17⟩ := demo_facts
  exact ⟨⟨h1, h2, h4, h5, by rw [h6]; simp, h7, h9, rfl, by omega⟩,
    ⟨h1, h2, h3, h4, h5, h13, h12, ⟨h11, h7, h8, h10⟩, by rw [h15]; exact rep_update rep_new 0, by omega⟩⟩

/-- A client and its server after their handshake; the first datagram arrives last and twice, the third is lost. -/
theorem demo_case :
    received S12.role Demo.pskEnv 2000 demoServer ([3, 1, 3, 0, 0].map fun i =>
      (sent C12.role Demo.pskEnv 2000 demoClient [[1, 2], [3], [4, 0], List.replicate 20 7]).getD i []) =
    [List.replicate 20 7, [3], [1, 2]] := by
  obtain ⟨⟨_, _, _, _, _, _, _, _, _, _, _, _, _, h14, _⟩, _⟩ := demo_facts
  have := stream_delivered (C12.roleOk Demo.pskEnv) (S12.roleOk Demo.pskEnv) (matched_demo .psk [0xC0A8] true false)
    (fun _ _ _ _ => rfl) Recv12.search_ok_demo (.inr rfl) demo_client.1 demo_server.2 (by rw [h14]; decide) 2000
    [[1, 2], [3], [4, 0], List.replicate 20 7] (by decide) (by rw [h14]; decide) [3, 1, 3, 0, 0] (by decide)
  rw [show wanted [[1, 2], [3], [4, 0], List.replicate 20 7] [] [3, 1, 3, 0, 0] = [List.replicate 20 7, [3], [1, 2]] by decide] at this
  exact this

/-- And the other way. -/
example : received C12.role Demo.pskEnv 2000 demoClient ([0, 2].map fun i =>
      (sent S12.role Demo.pskEnv 2000 demoServer [[1, 2], [3], []]).getD i []) = [[1, 2], []] := by
  obtain ⟨_, _, _, _, _, _, _, _, _, _, _, _, _, _, h14, _⟩ := demo_facts
  exact lossy_delivered (S12.roleOk Demo.pskEnv) (C12.roleOk Demo.pskEnv) (matched_demo .psk [0xC0A8] true false)
    (fun _ _ _ _ => rfl) Recv12.search_ok_demo (.inr rfl) demo_server.1 demo_client.2 (by rw [h14]; decide) 2000
    [[1, 2], [3], []] (by decide) (by rw [h14]; decide) [0, 2] (by decide) (by decide)

end Verif.Props.Pair12

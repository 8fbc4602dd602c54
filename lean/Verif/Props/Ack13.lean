import Verif.Lemmas.Ack13
import Verif.Lemmas.Rotate13
import Verif.Props.Epoch13
/-!
# ACKs and KeyUpdates of DTLS 1.3 (C34, C35, C56)

`Careful` is explained at `Fresh13.nonces_differ_partial`.
-/
namespace Verif.Props.Ack13
open Verif Verif.E13 Verif.Wire Verif.M
open Verif.E12 (outputs Call Ret cmpPair)

variable {env : PEnv} {cfg : Cfg} {R : Role} {s0 : Ses R.St}

/-! ## C34: the wire format -/

/-- `d` is the ACK that lists `l` (RFC 9147, section 7): a length and pairs of epoch and number. -/
structure Lists (d : Bytes) (l : List (Nat × Nat)) : Prop where
  wire : d = beBytes 2 (16 * l.length) ++ (l.map fun n => beBytes 8 n.1 ++ beBytes 8 n.2).flatten
  fits : 16 * l.length < 2 ^ 16
  small : ∀ n ∈ l, n.1 < 2 ^ 64 ∧ n.2 < 2 ^ 64

theorem ackBody_eq (l : List (Nat × Nat)) :
    ackBody l = beBytes 2 (16 * l.length) ++ (l.map fun n => beBytes 8 n.1 ++ beBytes 8 n.2).flatten := by
  unfold ackBody
  rw [Nat.mul_comm]
  rfl

theorem pairs_length (l : List (Nat × Nat)) :
    ((l.map fun n => beBytes 8 n.1 ++ beBytes 8 n.2).flatten).length = 16 * l.length := by
  induction l with
  | nil => rfl
  | cons a l ih => simp [beBytes_length, ih]; omega

theorem ackNumbers_pairs (l : List (Nat × Nat)) (h : ∀ n ∈ l, n.1 < 2 ^ 64 ∧ n.2 < 2 ^ 64) :
    ackNumbers l.length ((l.map fun n => beBytes 8 n.1 ++ beBytes 8 n.2).flatten) = l := by
  induction l with
  | nil => rfl
  | cons a l ih =>
    obtain ⟨h1, h2⟩ := h a (List.mem_cons_self ..)
    have e1 : (beBytes 8 a.1).length = 8 := beBytes_length ..
    have e2 : (beBytes 8 a.2).length = 8 := beBytes_length ..
    rw [List.map_cons, List.flatten_cons, List.length_cons]
    unfold ackNumbers
    rw [List.append_assoc, List.take_left' e1, List.drop_left' e1, List.take_left' e2,
      show (16 : Nat) = 8 + 8 from rfl, ← List.drop_drop, List.drop_left' e1, List.drop_left' e2,
      ih fun n hn => h n (List.mem_cons_of_mem _ hn),
      ofBe_beBytes_of_lt (Nat.lt_of_lt_of_le h1 (by decide)), ofBe_beBytes_of_lt (Nat.lt_of_lt_of_le h2 (by decide))]

theorem pairs_ackNumbers (n : Nat) (d : Bytes) (h : d.length = 16 * n) :
    (ackNumbers n d).length = n ∧
    ((ackNumbers n d).map fun n => beBytes 8 n.1 ++ beBytes 8 n.2).flatten = d ∧
    ∀ x ∈ ackNumbers n d, x.1 < 2 ^ 64 ∧ x.2 < 2 ^ 64 := by
  induction n generalizing d with
  | zero =>
    have : d = [] := List.length_eq_zero_iff.mp (by omega)
    subst this
    exact ⟨rfl, rfl, fun _ h => nomatch h⟩
  | succ n ih =>
    obtain ⟨i1, i2, i3⟩ := ih (d.drop 16) (by rw [List.length_drop]; omega)
    have l1 : (d.take 8).length = 8 := by rw [List.length_take]; omega
    have l2 : ((d.drop 8).take 8).length = 8 := by rw [List.length_take, List.length_drop]; omega
    have b1 := beBytes_ofBe (d.take 8)
    have b2 := beBytes_ofBe ((d.drop 8).take 8)
    rw [l1] at b1
    rw [l2] at b2
    have c1 := ofBe_lt (d.take 8)
    have c2 := ofBe_lt ((d.drop 8).take 8)
    rw [l1] at c1
    rw [l2] at c2
    unfold ackNumbers
    refine ⟨by rw [List.length_cons, i1], ?_, ?_⟩
    · rw [List.map_cons, List.flatten_cons, i2, b1, b2, List.append_assoc]
      rw [show d.drop 16 = (d.drop 8).drop 8 by rw [List.drop_drop], List.take_append_drop, List.take_append_drop]
    · intro x hx
      rcases List.mem_cons.mp hx with rfl | hx
      · exact ⟨Nat.lt_of_lt_of_le c1 (by decide), Nat.lt_of_lt_of_le c2 (by decide)⟩
      · exact i3 x hx

/-- **C34.** What the receiver of an ACK reads is exactly what the wire format says: it reads `l` if and only
if the bytes are the ACK that lists `l`. Anything else is taken as malformed. -/
theorem ack_read_exactly (d : Bytes) (l : List (Nat × Nat)) : parseAck d = some l ↔ Lists d l := by
  constructor
  · intro h
    unfold parseAck at h
    split at h
    · cases h
    · rename_i h2
      dsimp only at h
      split at h
      · cases h
      · rename_i hn
        cases h
        have e1 : (d.drop 2).length = ofBe (d.take 2) := by
          apply Decidable.byContradiction; exact fun g => hn (.inl g)
        have e2 : ofBe (d.take 2) % 16 = 0 := by
          apply Decidable.byContradiction; exact fun g => hn (.inr g)
        have lt : (d.take 2).length = 2 := by rw [List.length_take]; omega
        have hb := ofBe_lt (d.take 2)
        have hi := beBytes_ofBe (d.take 2)
        rw [lt] at hb hi
        obtain ⟨g1, g2, g3⟩ := pairs_ackNumbers (ofBe (d.take 2) / 16) (d.drop 2) (by omega)
        have e3 : 16 * (ofBe (d.take 2) / 16) = ofBe (d.take 2) := by omega
        refine ⟨?_, ?_, g3⟩
        · rw [g2, g1, e3, hi, List.take_append_drop]
        · rw [g1, e3]; exact hb
  · rintro ⟨rfl, h1, h2⟩
    have e1 : (beBytes 2 (16 * l.length)).length = 2 := beBytes_length ..
    unfold parseAck
    have hp := pairs_length l
    rw [if_neg (by rw [List.length_append, e1]; omega)]
    dsimp only
    rw [List.take_left' e1, List.drop_left' e1, ofBe_beBytes_of_lt (Nat.lt_of_lt_of_le h1 (by decide)), hp,
      if_neg (by simp), Nat.mul_div_cancel_left _ (by decide), ackNumbers_pairs l h2]

/-- **C34.** The ACK that is written parses back to the numbers it was written for. -/
theorem ack_round_trip (l : List (Nat × Nat)) (hl : l.length < 4096) (hn : ∀ n ∈ l, n.1 < 2 ^ 64 ∧ n.2 < 2 ^ 64) :
    parseAck (ackBody l) = some l :=
  (ack_read_exactly _ _).mpr ⟨ackBody_eq l, by omega, hn⟩

example : parseAck (ackBody [(2, 0), (3, 2 ^ 40 + 7)]) = some [(2, 0), (3, 2 ^ 40 + 7)] := by decide +kernel
example : parseAck [0, 16, 0, 0] = none := by decide

/-! ## C34: what an ACK does -/

/-- The saved record with an ACK of `l` taken note of. -/
def noted (l : List (Nat × Nat)) (x : Entry) : Entry :=
  { x with acked := x.acked || decide ((x.epoch, x.sendSeq) ∈ l) }

/-- Every record of the handshake flight (epoch 2) is acknowledged, and there is one. -/
def FlightDone (m : List Entry) : Prop := (∃ x ∈ m, x.epoch = 2) ∧ ∀ x ∈ m, x.epoch = 2 → x.acked = true

/-- Every record is acknowledged, and there is one. -/
def AllDone (m : List Entry) : Prop := m ≠ [] ∧ ∀ x ∈ m, x.acked = true

theorem markAcked_noted (l : List (Nat × Nat)) (x : Entry) : markAcked l x = noted l x := by
  unfold markAcked noted
  have : (l.any fun n => x.epoch == n.1 && x.sendSeq == n.2) = decide ((x.epoch, x.sendSeq) ∈ l) := by
    rw [Bool.eq_iff_iff]
    simp only [List.any_eq_true, Bool.and_eq_true, beq_iff_eq, decide_eq_true_eq]
    constructor
    · rintro ⟨n, h1, h2, h3⟩
      rw [h2, h3]
      exact h1
    · intro h
      exact ⟨_, h, rfl, rfl⟩
  rw [this]
  cases hd : decide ((x.epoch, x.sendSeq) ∈ l) with
  | true => rw [if_pos rfl, Bool.or_true]
  | false => simp

theorem flightDone_iff (m : List Entry) :
    (m.any (·.epoch == 2) && (m.filter (·.epoch == 2)).all (·.acked)) = true ↔ FlightDone m := by
  unfold FlightDone
  simp only [Bool.and_eq_true, List.any_eq_true, List.all_eq_true, List.mem_filter, beq_iff_eq, and_imp]

theorem allDone_iff (m : List Entry) : (!m.isEmpty && m.all (·.acked)) = true ↔ AllDone m := by
  unfold AllDone
  cases m <;> simp

/-- **C34.** A malformed ACK changes nothing. A well-formed one marks exactly those saved records whose
epoch and number it lists; if thereby the handshake flight is complete it is forgotten and its timer stopped;
if thereby the flight of a KeyUpdate is complete the send epoch moves on by one and the flight is forgotten.
In the first two cases nothing else changes. -/
theorem ack_marks_exactly (env : Env) (d : Bytes) (s : Eng) :
    ((∀ l, ¬ Lists d l) → processAck env d s = (.ok (), s)) ∧
    ∀ l, Lists d l →
      let m := s.saved.map (noted l)
      (¬ FlightDone m → ¬ (s.kuInFlight = true ∧ AllDone m) →
        processAck env d s = (.ok (), { s with saved := m })) ∧
      (FlightDone m →
        processAck env d s = (.ok (), { s with saved := [], timers := { s.timers with flight := .disabled } })) ∧
      (¬ FlightDone m → s.kuInFlight = true → AllDone m →
        (processAck env d s).1 = .ok () →
        let t := (processAck env d s).2
        t.saved = [] ∧ t.kuInFlight = false ∧ t.appEpoch = s.appEpoch + 1 ∧ t.log = .rotated s.appEpoch :: s.log ∧
          t.rx = s.rx ∧ t.received = s.received) := by
  refine ⟨fun h => ?_, fun l hl => ?_⟩
  · unfold processAck
    cases hp : parseAck d with
    | none => rfl
    | some l => exact absurd ((ack_read_exactly d l).mp hp) (h l)
  · intro m
    have hp := (ack_read_exactly d l).mpr hl
    have hm : s.saved.map (markAcked l) = m := List.map_congr_left fun x _ => markAcked_noted l x
    have e0 : processAck env d s = ackKeyUpdate env (ackHandshakeFlight { s with saved := m }) := by
      simp only [processAck, hp, hm]
    refine ⟨fun h1 h2 => ?_, fun h1 => ?_, fun h1 h2 h3 hok => ?_⟩
    · rw [e0]
      have e1 : ackHandshakeFlight { s with saved := m } = { s with saved := m } := by
        unfold ackHandshakeFlight
        rw [if_neg fun h => h1 ((flightDone_iff m).mp h)]
      rw [e1]
      unfold ackKeyUpdate
      rw [if_neg]
      intro h
      rw [Bool.and_assoc, Bool.and_eq_true] at h
      exact h2 ⟨h.1, (allDone_iff m).mp h.2⟩
    · rw [e0]
      have e1 : ackHandshakeFlight { s with saved := m } =
          { s with saved := [], timers := { s.timers with flight := .disabled } } := by
        unfold ackHandshakeFlight
        rw [if_pos ((flightDone_iff m).mpr h1)]
      rw [e1]
      unfold ackKeyUpdate
      rw [if_neg (by simp)]
    · rw [e0] at hok ⊢
      have e1 : ackHandshakeFlight { s with saved := m } = { s with saved := m } := by
        unfold ackHandshakeFlight
        rw [if_neg fun h => h1 ((flightDone_iff m).mp h)]
      rw [e1] at hok ⊢
      unfold ackKeyUpdate at hok ⊢
      rw [if_pos (by rw [Bool.and_assoc, Bool.and_eq_true]; exact ⟨h2, (allDone_iff m).mpr h3⟩)] at hok ⊢
      have key := updateSendKeys_facts (env := env) { s with saved := m }
      unfold wp at key
      unfold M.bind at hok ⊢
      split at key
      · rename_i t he
        rw [he]
        exact ⟨rfl, rfl, key.2.2.2, key.2.2.1, key.1, key.2.1⟩
      · rename_i he
        rw [he] at hok
        cases hok

/-- An ACK of two of three records of a flight, and of a number of another epoch. -/
example : let x (n : Nat) : Entry := { ctype := ctHandshake, epoch := 2, fragment := [], sendSeq := n, acked := false }
    let d := ackBody [(2, 5), (3, 6), (2, 7)]
    Lists d [(2, 5), (3, 6), (2, 7)] ∧ ([5, 6, 7].map x).map (noted [(2, 5), (3, 6), (2, 7)]) =
      [{ x 5 with acked := true }, x 6, { x 7 with acked := true }] := by
  refine ⟨⟨by decide, by decide, by decide⟩, by decide⟩

/-! ## C34: what ACKs are sent -/

/-- A record of content type `t` was opened in `past` with epoch and number `n`. -/
def Opened (past : List Ev) (n : Nat × Nat) (t : UInt8) (content : Bytes) : Prop :=
  ∃ k nonce aad cipher plain, Ev.opened k nonce aad cipher plain n.1 n.2 ∈ past ∧ recoverInner plain = some (t, content)

theorem logOk_split {b : Bool} {l past : List Ev} {e : Ev} (h : LogOk b l) {later : List Ev}
    (hl : l = later ++ e :: past) : Sound b e past := by
  induction later generalizing l with
  | nil => subst hl; exact h.1
  | cons x later ih => subst hl; exact ih h.2 rfl

/-- **C34.** In every execution, every ACK that is sent lists between one and 32 numbers, and each of them is the
epoch and number of a handshake record that was opened before. -/
theorem ack_lists_opened (h : Start env cfg R s0) (cs : List Call) (later past : List Ev) (k : Option Keys)
    (ep n : Nat) (body : Bytes) (hl : (run R env s0 cs).2.eng.log = later ++ .queued k ctAck ep n body :: past) :
    ∃ l : List (Nat × Nat), l ≠ [] ∧ l.length ≤ 32 ∧
      body = beBytes 2 (16 * l.length) ++ (l.map fun n => beBytes 8 n.1 ++ beBytes 8 n.2).flatten ∧
      ∀ x ∈ l, ∃ c, Opened past x ctHandshake c := by
  obtain ⟨l, h1, h2, h3, h4⟩ := logOk_split (h.ackInv cs).log hl rfl
  exact ⟨l, h1, h2, h3.trans (ackBody_eq l), h4⟩

/-! ## C56 -/

/-- **C56.** The protected handshake records of a datagram that begins with a message not yet queued are noted
for the next ACK if there is room.

Missing from C56: datagrams that begin with another record (`packed_key_update_unacked`), messages processed before
(`lost_ack_is_fatal`). -/
theorem new_records_noted_partial (env : Env) (s : Eng) (rs : List Rx) (i : Nat)
    (hi : env.search s.tick (s.rx.map fun item => cmpPair (hsKey item) (hsKey rs)) = .insertAt i)
    (hr : s.received.length + rs.length ≤ 32) :
    (insertHs env rs s).1 = .ok () ∧
    (∀ r ∈ rs, 2 ≤ r.rcd.epoch → r.rcd.ctype = ctHandshake → (r.rcd.epoch, r.rcd.seq) ∈ (insertHs env rs s).2.received) ∧
    (∀ n ∈ s.received, n ∈ (insertHs env rs s).2.received) := by
  unfold insertHs
  rw [hi]
  dsimp only
  unfold noteReceived
  have hl := List.length_filter_le (fun r : Rx => decide (r.rcd.epoch ≥ 2 ∧ r.rcd.ctype = ctHandshake)) rs
  rw [List.take_of_length_le (by rw [List.length_append, List.length_map]; omega)]
  refine ⟨rfl, fun r hr he hc => ?_, fun n hn => List.mem_append_left _ hn⟩
  exact List.mem_append_right _ (List.mem_map.mpr ⟨r, List.mem_filter.mpr ⟨hr, by simp [he, hc]⟩, rfl⟩)

/-- **C56.** An ACK that is sent lists exactly the numbers noted. -/
theorem ack_lists_noted (env : Env) (s : Eng) (h : s.received ≠ []) (hok : (sendAck env s).1 = .ok ()) :
    ∃ k ep n l, (sendAck env s).2.log = .queued (some k) ctAck ep n (ackBody s.received) :: l ∧
      (sendAck env s).2.received = [] := by
  have hs : sendAck env s = createCipher env ctAck (if s.appSend.isSome then s.appEpoch else 2) false
      (ackBody s.received) { s with received := [] } := by
    unfold sendAck sendAckInner
    rw [if_neg (by simpa using h)]
  rw [hs] at hok ⊢
  have key := createCipher_facts (env := env) ctAck (if s.appSend.isSome then s.appEpoch else 2) false
    (ackBody s.received) { s with received := [] }
  unfold wp at key
  split at key
  · rename_i he
    rw [he]
    obtain ⟨_, k2, _, ⟨k, e, k4, _⟩, _⟩ := key
    exact ⟨k, _, _, _, k4, k2⟩
  · rename_i he
    rw [he] at hok
    cases hok

/-- A client notes the four protected records of the server's flight. -/
example : (Demo.clientRun Demo.plainEnv []).2.eng.received = [(2, 0), (2, 1), (2, 2), (2, 3)] := by decide +kernel

/-! ## C35 -/

/-- A KeyUpdate went out in epoch `ep`, and a record opened afterwards is an ACK that lists its number. -/
def Acked (past : List Ev) (ep : Nat) : Prop :=
  ∃ k n r q, Ev.queued (some k) ctHandshake ep q (keyUpdateMsg n r) ∈ past ∧
    ∃ m body l, Opened past m ctAck body ∧ Lists body l ∧ (ep, q) ∈ l

/-- **C35.** While no `handle_packet` or `handle_timeout` fails, the send keys move on from an epoch only after a
KeyUpdate sent in that epoch was acknowledged by a record that opened under the peer's keys. -/
theorem rotation_confirmed_partial (h : Start env cfg R s0) (cs : List Call) (hc : Smooth R env s0 cs)
    (later past : List Ev) (ep : Nat) (hl : (run R env s0 cs).2.eng.log = later ++ .rotated ep :: past) :
    Acked past ep := by
  obtain ⟨k, n, r, q, h1, m, body, l, h2, h3, h4⟩ := logOk_split (h.ackInv' cs hc).log hl rfl
  exact ⟨k, n, r, q, h1, m, body, l, h2, (ack_read_exactly body l).mp h3, h4⟩

theorem allStepped_split {l past : List Ev} {e : Ev} (h : AllStepped l) {later : List Ev}
    (hl : l = later ++ e :: past) : Stepped e past := by
  induction later generalizing l with
  | nil => subst hl; exact h.1
  | cons x later ih => subst hl; exact ih h.2 rfl

/-- How often the send keys moved on. -/
def moves : List Ev → Nat
  | [] => 0
  | .rotated _ :: l => moves l + 1
  | _ :: l => moves l

/-- How many KeyUpdates were sent. -/
def updatesSent : List Ev → Nat
  | [] => 0
  | .keyUpdate _ _ :: l => updatesSent l + 1
  | _ :: l => updatesSent l

/-- How many KeyUpdates were sent with another one in flight. -/
def overlaps : List Ev → Nat
  | [] => 0
  | .keyUpdate _ _ :: l => overlaps l + if moves l + overlaps l < updatesSent l then 1 else 0
  | _ :: l => overlaps l

theorem moves_eq (l : List Ev) : moves l = rots l := by
  induction l with
  | nil => rfl
  | cons e l ih =>
    cases e with
    | rotated ep => exact (congrArg (· + 1) ih).trans (List.countP_cons_of_pos rfl).symm
    | _ => exact ih

theorem updatesSent_eq (l : List Ev) : updatesSent l = kus l := by
  induction l with
  | nil => rfl
  | cons e l ih =>
    cases e with
    | keyUpdate ep r => exact (congrArg (· + 1) ih).trans (List.countP_cons_of_pos rfl).symm
    | _ => exact ih

theorem overlaps_eq {l : List Ev} (h : AllStepped l) : overlaps l = doubled l := by
  induction l with
  | nil => rfl
  | cons e l ih =>
    have hi := ih h.2
    have hk := kus_eq h.2
    cases e with
    | keyUpdate ep r =>
      show overlaps l + _ = doubled l + _
      rw [hi, moves_eq, updatesSent_eq, hk]
      cases pend l <;> simp
    | _ => exact hi

/-- **C35.** Every record of application data is sent in the epoch 3 plus the number of times the send keys had
moved on; a KeyUpdate is sent in the current epoch; the keys move on from the current epoch, by one. The number
of KeyUpdates sent is the number of moves, plus one if one is in flight, plus the number of those sent while
another one was in flight. So sender and receiver stay within one KeyUpdate of each other if none
is sent while another is in flight.

Missing from C35: the code does send one while another is in flight (`epochs_drift`). -/
theorem epochs_in_step_partial (h : Start env cfg R s0) (cs : List Call) (ha : Careful R env s0 cs) :
    let e := (run R env s0 cs).2.eng
    e.appEpoch = 3 + moves e.log ∧
    updatesSent e.log = moves e.log + (if e.kuInFlight then 1 else 0) + overlaps e.log ∧
    (∀ later k ep n body past, e.log = later ++ .queued k ctAppData ep n body :: past → ep = 3 + moves past) ∧
    (∀ later ep r past, e.log = later ++ .keyUpdate ep r :: past → ep = 3 + moves past) ∧
    (∀ later ep past, e.log = later ++ .rotated ep :: past →
      ep = 3 + moves past ∧ moves past + overlaps past < updatesSent past) := by
  intro e
  have hr : Rot e := h.rot cs ha
  refine ⟨?_, ?_, ?_, ?_, ?_⟩
  · rw [moves_eq]; exact hr.epoch
  · have h1 := kus_eq hr.all
    rw [moves_eq, updatesSent_eq, overlaps_eq hr.all, hr.flag, h1]
    cases pend e.log <;> simp <;> omega
  · intro later k ep n body past hl
    rw [moves_eq]
    exact allStepped_split hr.all hl rfl
  · intro later ep r past hl
    rw [moves_eq]
    exact allStepped_split hr.all hl
  · intro later ep past hl
    obtain ⟨h1, h2⟩ := allStepped_split hr.all hl
    have h3 : AllStepped past := by
      have := hr.all
      rw [hl] at this
      clear hl h1 h2
      induction later with
      | nil => exact this.2
      | cons x later ih => exact ih this.2
    have h4 := kus_eq h3
    rw [moves_eq, updatesSent_eq, overlaps_eq h3]
    rw [h2] at h4
    simp at h4
    omega

/-! ## Cases -/

/-- Keys that may protect eight records. -/
def smallCfg : Cfg := { Demo.cfg with aeadLimit := 8 }

def duo0 : Demo.Duo :=
  { client := (call C13.role Demo.plainEnv (C13.start Demo.plainEnv smallCfg 0) (.timeout 0)).2
    server := (call S13.role Demo.plainEnv (S13.start Demo.plainEnv smallCfg 0 false) (.timeout 0)).2
    cCalls := [.timeout 0], sCalls := [.timeout 0] }

/-- Let both ends talk `n` times. -/
def talk : Nat → Demo.Duo → Demo.Duo
  | 0, d => d
  | n + 1, d => talk n (Demo.round Demo.plainEnv Demo.plainEnv d)

/-- Further calls on either side. -/
def client (d : Demo.Duo) (cs : List Call) : Demo.Duo :=
  { d with client := (run C13.role Demo.plainEnv d.client cs).2, cCalls := d.cCalls ++ cs }
def server (d : Demo.Duo) (cs : List Call) : Demo.Duo :=
  { d with server := (run S13.role Demo.plainEnv d.server cs).2, sCalls := d.sCalls ++ cs }

/-- The client sends its data and lets go of it. -/
def sends (d : Demo.Duo) : Demo.Duo :=
  let d := client d (List.replicate 6 (.send [2]))
  let r := Demo.drain C13.role Demo.plainEnv 30 d.client
  { d with client := r.2.2, cCalls := d.cCalls ++ r.1 }

/-- A client that sends data until its keys are used up, updates them, and sends more. -/
def updated : Demo.Duo :=
  client (talk 1 (client (sends (talk 4 duo0)) [.timeout 3000])) [.send [9]]

example : updated.client.eng.log.filterMap (fun e => match e with
      | .rotated ep => some (ep, 0)
      | .keyUpdate ep _ => some (ep, 1)
      | .queued _ c ep _ _ => if c = ctAppData then some (ep, 2) else none
      | _ => none) =
    [(4, 2), (3, 0), (3, 1), (3, 2), (3, 2), (3, 2), (3, 2), (3, 2), (3, 2)] ∧
    (run C13.role Demo.plainEnv (C13.start Demo.plainEnv smallCfg 0) updated.cCalls).1.all Fresh13.fine = true := by
  decide +kernel

/-- Calls none of which failed. -/
theorem smooth_of_fine {cs : List Call} {s : Ses R.St} (h : (run R env s cs).1.all Fresh13.fine = true) :
    Smooth R env s cs := by
  induction cs generalizing s with
  | nil => trivial
  | cons c cs ih =>
    unfold run at h
    dsimp only at h
    split at h
    · rename_i hs
      rcases hs with hs | hs | hs <;> simp [hs, Fresh13.fine] at h
    · simp only [List.all_cons, Bool.and_eq_true] at h
      refine ⟨fun hc => ?_, ih h.2⟩
      have h1 := h.1
      rcases hc with ⟨p, rfl⟩ | ⟨n, rfl⟩
      · unfold call at h1 ⊢
        revert h1
        dsimp only
        cases E12.toApi _ <;> simp [Fresh13.fine]
      · unfold call at h1 ⊢
        revert h1
        dsimp only
        cases E12.toApi _ <;> simp [Fresh13.fine]

attribute [local irreducible] Smooth Careful in
/-- The client above meets the hypotheses. -/
example : Smooth C13.role Demo.plainEnv (C13.start Demo.plainEnv smallCfg 0) updated.cCalls ∧
    Careful C13.role Demo.plainEnv (C13.start Demo.plainEnv smallCfg 0) updated.cCalls := by
  have h : (run C13.role Demo.plainEnv (C13.start Demo.plainEnv smallCfg 0) updated.cCalls).1.all Fresh13.fine = true := by
    decide +kernel
  exact ⟨smooth_of_fine (R := C13.role) h, Fresh13.careful_of_fine (R := C13.role) h⟩

/-! ## What does not hold -/

/-- The server has sent five records when the client's KeyUpdate arrives, and its ACK uses up its keys; both it and
the client let go of what they have. -/
def crossing : Demo.Duo :=
  let d := client (sends (talk 4 duo0)) [.timeout 3000]
  let r := Demo.drain C13.role Demo.plainEnv 30 d.client
  let d := server { d with client := r.2.2, cCalls := d.cCalls ++ r.1 }
    (List.replicate 4 (.send [1]) ++ r.2.1.map .packet)
  let r := Demo.drain S13.role Demo.plainEnv 30 d.server
  let d := client { d with server := r.2.2, sCalls := d.sCalls ++ r.1 } (r.2.1.map .packet)
  talk 1 (client (talk 1 (server d [.timeout 4000])) [.timeout 5000])

/-- **C35 fails.** A KeyUpdate that answers the peer's is sent even if one of our own was sent in the same call. The
second replaces the first in the flight, so both are sent but the send keys move on once, while the peer
moves on twice. Nothing is lost on the way and no call fails; no KeyUpdate is in flight any more, but the client
has moved its receive epoch one further than the server its send epoch. -/
theorem epochs_drift :
    let s := crossing.server.eng
    updatesSent s.log = 2 ∧ moves s.log = 1 ∧ s.kuInFlight = false ∧ s.appEpoch = 4 ∧
    Epoch13.epochs crossing.client.eng = [3, 4, 5] ∧
    (run S13.role Demo.plainEnv (S13.start Demo.plainEnv smallCfg 0 false) crossing.sCalls).1.all Fresh13.fine = true ∧
    (run C13.role Demo.plainEnv (C13.start Demo.plainEnv smallCfg 0) crossing.cCalls).1.all Fresh13.fine = true := by
  decide +kernel

/-- Both ends call `handle_timeout`; everything they send arrives. -/
def tick (d : Demo.Duo) (t : Nat) : Demo.Duo := talk 2 (client (server d [.timeout t]) [.timeout t])

/-- The server's keys are used up with its data still in the queue, so the KeyUpdate shares a datagram with it. -/
def packed : Demo.Duo :=
  [3000000000, 6000000000, 12000000000, 25000000000, 38000000000].foldl tick
    (talk 1 (server (talk 4 duo0) (List.replicate 6 (.send [1]) ++ [.timeout 3000])))

/-- **C56 fails.** The number of a handshake record is not noted for an ACK if the first record of its datagram is
not a handshake record. The client takes the KeyUpdate that follows data in a datagram, but never acknowledges
it, not even when it arrives again in a datagram of its own. Nothing is lost and no call fails, but in
the end the server gives up the connection. -/
theorem packed_key_update_unacked :
    Epoch13.epochs packed.client.eng = [3, 4] ∧ packed.server.eng.kuInFlight = true ∧
    (run S13.role Demo.plainEnv (S13.start Demo.plainEnv smallCfg 0 false) packed.sCalls).1.all Fresh13.fine = true ∧
    (run C13.role Demo.plainEnv (C13.start Demo.plainEnv smallCfg 0) packed.cCalls).1.all Fresh13.fine = true ∧
    (call S13.role Demo.plainEnv packed.server (.timeout 70000000000)).1 = .res (.err .timeoutHandshake) := by
  decide +kernel

/-- The server's KeyUpdate goes out in a datagram of its own, but the client's first datagram afterwards, its ACK, is
lost. -/
def unheard : Demo.Duo :=
  let d := talk 1 (server (talk 4 duo0) (List.replicate 6 (.send [1])))
  let d := server d [.timeout 3000]
  let r := Demo.drain S13.role Demo.plainEnv 30 d.server
  let d := client { d with server := r.2.2, sCalls := d.sCalls ++ r.1 } (r.2.1.map .packet)
  let r := Demo.drain C13.role Demo.plainEnv 30 d.client
  [3000000000, 6000000000, 12000000000, 25000000000, 38000000000].foldl tick
    { d with client := r.2.2, cCalls := d.cCalls ++ r.1 }

/-- **C56 fails.** A handshake message that was processed before is dropped without another ACK: if the one ACK of a
KeyUpdate is lost, the peer repeats the KeyUpdate in vain and gives up the connection, although everything
else arrives. -/
theorem lost_ack_is_fatal :
    Epoch13.epochs unheard.client.eng = [3, 4] ∧ unheard.server.eng.kuInFlight = true ∧
    (run S13.role Demo.plainEnv (S13.start Demo.plainEnv smallCfg 0 false) unheard.sCalls).1.all Fresh13.fine = true ∧
    (run C13.role Demo.plainEnv (C13.start Demo.plainEnv smallCfg 0) unheard.cCalls).1.all Fresh13.fine = true ∧
    (call S13.role Demo.plainEnv unheard.server (.timeout 70000000000)).1 = .res (.err .timeoutHandshake) := by
  decide +kernel

end Verif.Props.Ack13

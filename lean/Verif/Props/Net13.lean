import Verif.Props.Pair13
import Verif.Lemmas.Window
/-!
# C69: application data between two connected DTLS 1.3 sessions

`Pair13.stream_delivered` is about a network that loses datagrams. Here it also repeats and reorders them.
-/
namespace Verif.Props.Net13
open Verif Verif.E13 Verif.Wire Verif.M
open Verif.E12 (outputs Call Ret)
open Verif.Props.Send13 (Sizes)
open Verif.Props.Pair13
open Verif.Aead (nonceXor)
open Verif.Window (Rep check_iff rep_update rep_new)

variable {ea eb : PEnv} {A B : Role} {T : Nat}

/-- The datagram `w` is one application data record, number `seq` of `epoch` with content `d`, sealed with `k`. -/
def Sealed (env : Env) (T suite : Nat) (k : Keys) (epoch seq : Nat) (d w : Bytes) : Prop :=
  ∃ c, env.enc k.key (nonceXor k.iv seq) (cipherHeader epoch seq ((innerPlaintext ctAppData d).length + T))
      (innerPlaintext ctAppData d) = some c ∧ w = wireOf env suite k epoch seq c

/-- The receiver holds the keys `k` for `epoch`, takes `ex` for the next number and has taken exactly the numbers
`seen`. -/
def Listens (b : Ses B.St) (suite : Nat) (k : Keys) (epoch ex : Nat) (seen : List Nat) : Prop :=
  ∃ r, Receiver b suite k epoch r ∧ r.expected = ex ∧ Rep r.replay seen

theorem keyed {b : Ses B.St} {suite : Nat} {k : Keys} {epoch : Nat} {r : RecvEpoch}
    (h : Receiver b suite k epoch r) (he : 3 ≤ epoch) : Keyed b.eng suite k epoch where
  enc := h.enc
  suite := h.suite
  keys := by
    unfold Eng.recvKeys
    rw [if_neg (by omega), h.held, ← h.keys]
    rfl
  bits := h.bits

theorem known {b : Ses B.St} {suite : Nat} {k : Keys} {epoch seq : Nat} {r : RecvEpoch}
    (h : Receiver b suite k epoch r) (he : 3 ≤ epoch) (h1 : seq < r.expected + 32768) (h2 : r.expected < seq + 32768) :
    Known b.eng suite k epoch seq where
  toKeyed := keyed h he
  window := ⟨r.expected, fun h => by omega, fun _ r' hr => by rw [h.held] at hr; cases hr; rfl, h1, h2⟩

/-- A record that fails the replay check changes nothing. -/
theorem refuse_wire {ea eb : Env} (hm : Matched ea eb T) {b : Eng} {suite : Nat} {k : Keys} {ep seq : Nat} {c : Bytes}
    (h : Known b suite k ep seq) (ht : ea.suiteTag suite = some T) (hl : c.length < 65536)
    (hr : b.replayCheck ep seq = false) : recordParse eb (wireOf ea suite k ep seq c) b = (.ok none, b) := by
  obtain ⟨x, y, l, m, h1, h2, h3⟩ := wire_shape ea suite k ep seq c
  obtain ⟨f1, f2, f3, f4, f5⟩ := Wire.cipherFlags_spec ep
  have hmod : c.length % 65536 = c.length := Nat.mod_eq_of_lt hl
  have hp := Wire.cipher13_roundtrip ep seq c [] hl
  rw [List.append_nil] at hp
  have hfl : flagsOf (wireOf ea suite k ep seq c) = cipherFlags ep := by rw [h3]; rfl
  unfold recordParse
  simp only [hfl, f1, h.enc, Bool.and_self, if_true]
  rw [unmask_wire hm h.toKeyed ht, hmod]
  simp only [hp, f3]
  unfold openRecord
  simp only [h.bits, h.seq, hr, Bool.not_false, if_true]

theorem parse_stale {ea eb : Env} (hm : Matched ea eb T) {b : Eng} {suite : Nat} {k : Keys} {ep seq : Nat} {c : Bytes}
    (h : Known b suite k ep seq) (ht : ea.suiteTag suite = some T) (hl : c.length < 65536)
    (hr : b.replayCheck ep seq = false) : parsePacket eb (wireOf ea suite k ep seq c) b = (.ok (), b) := by
  obtain ⟨o, ho, hob⟩ := wire_out ea suite k ep seq c hl
  have hsp : split13 (wireOf ea suite k ep seq c) = ([wireOf ea suite k ep seq c], .done) := by
    have := Wire.split13_concat [o] (by simpa using ho) none
    simpa [hob] using this
  have hrp : recordsParse eb (wireOf ea suite k ep seq c) b = (.ok [], b) := by
    unfold recordsParse
    rw [hsp]
    simp only [M.bind, parseSlices, refuse_wire hm h ht hl hr, M.andThen, M.pure, classifyAll]
  unfold parsePacket
  simp only [M.bind, hrp, M.andThen]
  rfl

theorem poll_idle (n now : Nat) {e : Eng} (h1 : e.rx = []) (h2 : e.tx = []) (h3 : e.closeSeq = none) (h4 : e.release = true) :
    ∃ t, pollOutput n now e = (.timeout t, { e with ackDeadline := none }) := by
  have hp : purge e = e := by unfold purge; rw [h1]; cases e; subst h1; rfl
  have hna : nextApp e = none := by unfold nextApp; rw [h1]; rfl
  have hsc : scheduleAck now e = { e with ackDeadline := none } := by
    unfold scheduleAck
    rw [if_pos]
    unfold inProgress
    rw [h4]
    simp
  refine ⟨pollTimeout now { e with ackDeadline := none }, ?_⟩
  unfold pollOutput
  dsimp only
  rw [hp, if_pos h4, hna]
  dsimp only
  exact pollRest_idle n now h2 h3 hsc

/-- A session that only differs in what does not matter here. -/
theorem Receiver.like {b : Ses B.St} {suite : Nat} {k : Keys} {ep : Nat} {r : RecvEpoch} (h : Receiver b suite k ep r)
    (am : Bool) (rt : List Bytes) : Receiver { b with
      eng := { b.eng with ackDeadline := none }, autoMode := am, retained := rt } suite k ep r :=
  ⟨h.st, h.events, h.queued, h.pendingKu, h.needsKu, h.tx, h.rx, h.close, h.release, h.enc, h.suite, h.bits, h.held, h.keys,
    h.mark, h.room⟩

/-- A record whose datagram changes nothing in the engine. -/
theorem receiver_ignores (hR : RoleOk B eb keying) (hfst : B.first B.app = false) {b : Ses B.St} {suite : Nat} {k : Keys}
    {ep ex : Nat} {seen : List Nat} {w : Bytes} (h : Listens b suite k ep ex seen)
    (hp : parsePacket eb.toEnv w b.eng = (.ok (), b.eng)) (n : Nat) :
    ∃ b1 b2 b3 t t', call B eb b (.packet w) = (.res .ok, b1) ∧
      call B eb b1 (.poll n) = (.out (.eng (.timeout t)), b2) ∧
      call B eb b2 (.poll n) = (.out (.eng (.timeout t')), b3) ∧ Listens b3 suite k ep ex seen := by
  obtain ⟨r, h, rfl, hw⟩ := h
  have hcomp : hasComplete b.eng mtKeyUpdate = false := by
    unfold hasComplete completeView
    rw [h.rx]
    rfl
  have hset : ∀ s : Ses B.St, ∃ am rt, Recv13.settle B s = { s with autoMode := am, retained := rt } := by
    intro s
    unfold Recv13.settle
    split <;> exact ⟨_, _, rfl⟩
  obtain ⟨am, rt, hset⟩ := hset b
  obtain ⟨t, q1⟩ := poll_idle n b.lastNow h.rx h.tx h.close h.release
  obtain ⟨t', q2⟩ := poll_idle n b.lastNow (e := { b.eng with ackDeadline := none }) h.rx h.tx h.close h.release
  refine ⟨{ b with autoMode := am, retained := rt },
    { b with eng := { b.eng with ackDeadline := none }, autoMode := am, retained := rt },
    { b with eng := { b.eng with ackDeadline := none }, autoMode := am, retained := rt }, t, t', ?_, ?_, ?_,
    r, Receiver.like h am rt, rfl, hw⟩
  · rw [Recv13.call_packet b _ (by rw [h.st]; exact hfst), hp]
    dsimp only
    rw [progress_idle hR b h.st (await_idle h.needsKu h.queued h.pendingKu hcomp)]
    dsimp only
    rw [hset]
  · have := poll_ev (R := B) (env := eb) { b with autoMode := am, retained := rt } b.eng n h.events
    rw [show pollOutput n ({ b with autoMode := am, retained := rt } : Ses B.St).lastNow b.eng = _ from q1] at this
    exact this
  · have := poll_ev (R := B) (env := eb) { b with autoMode := am, retained := rt } { b.eng with ackDeadline := none } n h.events
    rw [show pollOutput n ({ b with autoMode := am, retained := rt } : Ses B.St).lastNow _ = _ from q2] at this
    exact this

theorem receiver_stale (hR : RoleOk B eb keying) (hfst : B.first B.app = false) (hm : Matched ea.toEnv eb.toEnv T)
    {b : Ses B.St} {suite : Nat} {k : Keys} {ep ex seq : Nat} {seen : List Nat} {d w : Bytes}
    (h : Listens b suite k ep ex seen) (he : 3 ≤ ep) (hs : Sealed ea.toEnv T suite k ep seq d w)
    (ht : ea.suiteTag suite = some T) (hl : d.length + 1 + T < 65536)
    (h1 : seq < ex + 32768) (h2 : ex < seq + 32768) (h3 : seq ∈ seen ∨ ∃ m ∈ seen, seq + 63 < m) (n : Nat) :
    ∃ b1 b2 b3 t t', call B eb b (.packet w) = (.res .ok, b1) ∧
      call B eb b1 (.poll n) = (.out (.eng (.timeout t)), b2) ∧
      call B eb b2 (.poll n) = (.out (.eng (.timeout t')), b3) ∧ Listens b3 suite k ep ex seen := by
  obtain ⟨r, h, rfl, hw⟩ := h
  obtain ⟨c, hc, rfl⟩ := hs
  have hcl : c.length < 65536 := by
    rw [hm.sizes.enc _ _ _ _ _ hc]; simp [innerPlaintext]; omega
  have hr : b.eng.replayCheck ep seq = false := by
    unfold Eng.replayCheck
    rw [if_neg (by omega), h.held]
    show r.replay.check seq = false
    rw [← Bool.not_eq_true, check_iff hw seq]
    rintro ⟨g1, g2⟩
    rcases h3 with h3 | ⟨m, h3, h4⟩
    · exact g1 h3
    · have := g2 m h3; omega
  exact receiver_ignores hR hfst ⟨r, h, rfl, hw⟩ (parse_stale hm (known h he h1 h2) ht hcl hr) n

theorem receiver_fresh (hR : RoleOk B eb keying) (hfst : B.first B.app = false) (hm : Matched ea.toEnv eb.toEnv T)
    (hse : E12.SearchOk eb.search) {b : Ses B.St} {suite : Nat} {k : Keys} {ep ex seq : Nat} {seen : List Nat} {d w : Bytes}
    (h : Listens b suite k ep ex seen) (he : 3 ≤ ep) (hs : Sealed ea.toEnv T suite k ep seq d w)
    (ht : ea.suiteTag suite = some T) (hl : d.length + 1 + T < 65536)
    (h1 : seq < ex + 32768) (h2 : ex < seq + 32768) (h3 : seq ∉ seen) (h4 : ∀ m ∈ seen, m ≤ seq + 63) (n : Nat)
    (hn : d.length ≤ n) :
    ∃ b1 b2 b3 t, call B eb b (.packet w) = (.res .ok, b1) ∧
      call B eb b1 (.poll n) = (.out (.eng (.appData d)), b2) ∧
      call B eb b2 (.poll n) = (.out (.eng (.timeout t)), b3) ∧ Listens b3 suite k ep (max ex (seq + 1)) (seq :: seen) := by
  obtain ⟨r, h, rfl, hw⟩ := h
  obtain ⟨c, hc, rfl⟩ := hs
  have hr : b.eng.replayCheck ep seq = true := by
    unfold Eng.replayCheck
    rw [if_neg (by omega), h.held]
    show r.replay.check seq = true
    rw [check_iff hw seq]
    exact ⟨h3, fun m hm => by have := h4 m hm; omega⟩
  obtain ⟨b1, b2, b3, t, g1, g2, g3, g4⟩ := receiver_take hR hfst hm hse h he
    { toKnown := known h he h1 h2, fresh := hr } ht hc hl n hn
  exact ⟨b1, b2, b3, t, g1, g2, g3, _, g4, rfl, rep_update hw seq⟩

/-! ### A whole stream -/

/-- `a` sends the payloads and polls once for each. The result is the datagrams. -/
def sent (A : Role) (ea : PEnv) (n : Nat) : Ses A.St → List Bytes → List Bytes
  | _, [] => []
  | a, d :: rest =>
    let o := call A ea (call A ea a (.send d)).2 (.poll n)
    (match o.1 with | .out (.eng (.packet p)) => p | _ => []) :: sent A ea n o.2 rest

/-- `b` is given the datagrams and polls twice after each. The result is the application data it was handed. -/
def received (B : Role) (eb : PEnv) (n : Nat) : Ses B.St → List Bytes → List Bytes
  | _, [] => []
  | b, p :: rest =>
    let b1 := (call B eb b (.packet p)).2
    let b2 := call B eb b1 (.poll n)
    let b3 := call B eb b2.2 (.poll n)
    ([b2.1, b3.1].filterMap fun | .out (.eng (.appData x)) => some x | _ => none) ++ received B eb n b3.2 rest

/-- What should come out when the payloads with these places in `data` arrive, in this order: each at its first arrival,
unless one that was sent 64 places later or more came before it. -/
def wanted (data : List Bytes) : List Nat → List Nat → List Bytes
  | _, [] => []
  | seen, i :: rest =>
    if i ∈ seen ∨ ∃ m ∈ seen, i + 63 < m then wanted data seen rest
    else data.getD i [] :: wanted data (i :: seen) rest

/-- Every arriving number is within 32768 of the one after the newest before it; at the start that is `ex`. -/
def Near : Nat → List Nat → Prop
  | _, [] => True
  | ex, q :: rest => q < ex + 32768 ∧ ex < q + 32768 ∧ Near (max ex (q + 1)) rest

theorem sent_sealed (hA : RoleOk A ea keying) (hz : Sizes ea.toEnv T) (henc : ∀ k n a p, (ea.enc k n a p).isSome)
    {suite : Nat} {k : Keys} (ht : ea.suiteTag suite = some T) (n : Nat) (data : List Bytes)
    (hl : ∀ d ∈ data, d.length + 1 + T < 65536 ∧ 5 + d.length + 1 + T ≤ n) :
    ∀ a : Ses A.St, Sender a suite k → a.eng.appSeq + data.length < 2 ^ 48 → ∀ i, i < data.length →
      Sealed ea.toEnv T suite k a.eng.appEpoch (a.eng.appSeq + i) (data.getD i []) ((sent A ea n a data).getD i []) := by
  induction data with
  | nil => intro a _ _ i hi; cases hi
  | cons d data ih =>
    intro a ha hlen i hi
    simp only [List.length_cons] at hlen
    obtain ⟨h1, h2⟩ := hl d (by simp)
    obtain ⟨c, a1, a2, g1, g2, g3, g4, g5, g6⟩ := sender_step hA hz henc ha ht (by omega) d n (by omega)
    unfold sent
    rw [g2]
    dsimp only
    rw [g3]
    dsimp only
    cases i with
    | zero => exact ⟨c, g1, rfl⟩
    | succ i =>
      have := ih (fun x hx => hl x (by simp [hx])) a2 g4 (by omega) i (by simpa using hi)
      rw [g5, g6, show a.eng.appSeq + 1 + i = a.eng.appSeq + (i + 1) by omega] at this
      exact this

theorem received_wanted (hB : RoleOk B eb keying) (hfst : B.first B.app = false) (hm : Matched ea.toEnv eb.toEnv T)
    (hse : E12.SearchOk eb.search) {suite : Nat} {k : Keys} (ht : ea.suiteTag suite = some T) {ep : Nat} (he : 3 ≤ ep)
    (n base : Nat) (data ws : List Bytes)
    (hl : ∀ d ∈ data, d.length + 1 + T < 65536 ∧ 5 + d.length + 1 + T ≤ n)
    (hw : ∀ i, i < data.length → Sealed ea.toEnv T suite k ep (base + i) (data.getD i []) (ws.getD i []))
    (old : List Nat) (hold : ∀ m ∈ old, m < base) (arr : List Nat) (harr : ∀ i ∈ arr, i < data.length) :
    ∀ (b : Ses B.St) (seen : List Nat) (ex : Nat), Near ex (arr.map (base + ·)) → (∀ m ∈ seen, base + m < ex) →
      Listens b suite k ep ex (seen.map (base + ·) ++ old) →
      received B eb n b (arr.map fun i => ws.getD i []) = wanted data seen arr := by
  induction arr with
  | nil => intro b seen _ _ _ _; rfl
  | cons i arr ih =>
    intro b seen ex hnear htop hb
    have ih := ih fun j hj => harr j (by simp [hj])
    have hi := harr i (by simp)
    have hmem : data.getD i [] ∈ data := by
      rw [List.getD_eq_getElem?_getD, List.getElem?_eq_getElem hi]
      exact List.getElem_mem hi
    obtain ⟨h1, h2⟩ := hl _ hmem
    obtain ⟨n1, n2, n3⟩ := hnear
    rw [List.map_cons]
    unfold received wanted
    by_cases hst : i ∈ seen ∨ ∃ m ∈ seen, i + 63 < m
    · rw [if_pos hst]
      have hmax : max ex (base + i + 1) = ex := by
        rcases hst with g | ⟨m, g, g'⟩
        · have := htop i g; omega
        · have := htop m g; omega
      rw [hmax] at n3
      obtain ⟨b1, b2, b3, t, t', g1, g2, g3, g4⟩ := receiver_stale hB hfst hm hb he (hw i hi) ht h1 n1 n2 (by
        rcases hst with g | ⟨m, g, g'⟩
        · exact .inl (by simp [g])
        · exact .inr ⟨base + m, by simp [g], by omega⟩) n
      rw [g1]
      dsimp only
      rw [g2]
      dsimp only
      rw [g3]
      dsimp only
      rw [ih b3 seen ex n3 htop g4]
      rfl
    · rw [if_neg hst]
      obtain ⟨b1, b2, b3, t, g1, g2, g3, g4⟩ := receiver_fresh hB hfst hm hse hb he (hw i hi) ht h1 n1 n2
        (by
          intro g
          rcases List.mem_append.mp g with g | g
          · obtain ⟨m, g, g'⟩ := List.mem_map.mp g
            exact hst (.inl (by rw [show i = m by omega]; exact g))
          · have := hold _ g; omega)
        (by
          intro m g
          rcases List.mem_append.mp g with g | g
          · obtain ⟨m', g, g'⟩ := List.mem_map.mp g
            by_cases hm' : i + 63 < m'
            · exact absurd (.inr ⟨m', g, hm'⟩) hst
            · omega
          · have := hold _ g; omega) n (by omega)
      rw [g1]
      dsimp only
      rw [g2]
      dsimp only
      rw [g3]
      dsimp only
      rw [ih b3 (i :: seen) (max ex (base + i + 1)) n3 (by
        intro m hm
        show base + m < max ex (base + i + 1)
        rcases List.mem_cons.mp hm with rfl | hm
        · omega
        · have := htop m hm; omega) g4]
      rfl

/-- **C69.** Between two connected DTLS 1.3 sessions that hold the same key for the sender's epoch, over a network that
loses, repeats and reorders datagrams: the application is handed every payload one of whose datagrams arrives,
exactly as it was sent, once, at its first arrival - unless a payload sent 64 places later or more arrived before
it - and nothing else. No arriving number may be 32768 or more away from the one the receiver takes for
the next. -/
theorem stream_delivered (hA : RoleOk A ea keying) (hB : RoleOk B eb keying') (hfst : B.first B.app = false)
    (hm : Matched ea.toEnv eb.toEnv T) (henc : ∀ k n a p, (ea.enc k n a p).isSome) (hse : E12.SearchOk eb.search)
    {suite : Nat} {k : Keys} (ht : ea.suiteTag suite = some T) {a : Ses A.St} {b : Ses B.St} {ex : Nat} {old : List Nat}
    (ha : Sender a suite k) (hb : Listens b suite k a.eng.appEpoch ex old) (hold : ∀ m ∈ old, m < a.eng.appSeq) (n : Nat)
    (data : List Bytes) (hl : ∀ d ∈ data, d.length + 1 + T < 65536 ∧ 5 + d.length + 1 + T ≤ n)
    (hlen : a.eng.appSeq + data.length < 2 ^ 48) (arr : List Nat) (harr : ∀ i ∈ arr, i < data.length)
    (hnear : Near ex (arr.map (a.eng.appSeq + ·))) :
    received B eb n b (arr.map fun i => (sent A ea n a data).getD i []) = wanted data [] arr :=
  received_wanted hB hfst hm hse ht ha.epoch n a.eng.appSeq data _ hl (sent_sealed hA hm.sizes henc ht n data hl a ha hlen)
    old hold arr harr b [] ex hnear (by simp) (by simpa using hb)

theorem near_short (lo hi : Nat) (h : hi < lo + 32768) (l : List Nat) (hl : ∀ q ∈ l, lo ≤ q ∧ q < hi) :
    ∀ ex, lo ≤ ex → ex ≤ hi → Near ex l := by
  induction l with
  | nil => intro _ _ _; trivial
  | cons q l ih =>
    intro ex h1 h2
    obtain ⟨h3, h4⟩ := hl q (by simp)
    exact ⟨by omega, by omega, ih (fun x hx => hl x (by simp [hx])) _ (by omega) (by omega)⟩

/-- Fewer than 32768 payloads may arrive in any order. -/
theorem near_of_few {base ex len : Nat} (h1 : ex ≤ base) (h2 : base + len < ex + 32768) {arr : List Nat}
    (harr : ∀ i ∈ arr, i < len) : Near ex (arr.map (base + ·)) := by
  refine near_short ex (base + len) h2 _ ?_ ex (Nat.le_refl _) (by omega)
  intro q hq
  obtain ⟨i, hi, rfl⟩ := List.mem_map.mp hq
  have := harr i hi
  omega

/-! ### Too far ahead -/

/-- What was sealed under one nonce does not open under another; nonces have twelve bytes. -/
def Strict (ea eb : Env) : Prop :=
  ∀ k n n' a a' p c, n.length = 12 → n'.length = 12 → ea.enc k n a p = some c → n' ≠ n → eb.dec k n' a' c = none

theorem nonce_length (iv : Bytes) (seq : Nat) (h : iv.length = 12) : (nonceXor iv seq).length = 12 := by
  unfold nonceXor Aead.xorBytes
  simp [h, beBytes_length]

theorem far_wire {ea eb : Env} (hm : Matched ea eb T) (hst : Strict ea eb) {b : Eng} {suite : Nat} {k : Keys} {ep seq : Nat}
    {a p c : Bytes} {r : RecvEpoch} (h : Keyed b suite k ep) (he : 3 ≤ ep) (hr : b.appRecv.find? (·.epoch == ep) = some r)
    (ht : ea.suiteTag suite = some T) (hc : ea.enc k.key (nonceXor k.iv seq) a p = some c) (hl : c.length < 65536)
    (hiv : k.iv.length = 12) (hq : seq < 2 ^ 48) (hfar : r.expected + 32768 < seq) :
    recordParse eb (wireOf ea suite k ep seq c) b = (.ok none, b) := by
  obtain ⟨x, y, l, m, h1, h2, h3⟩ := wire_shape ea suite k ep seq c
  obtain ⟨f1, f2, f3, f4, f5⟩ := Wire.cipherFlags_spec ep
  have htag : b.tag eb = some T := by unfold Eng.tag; rw [h.suite]; exact hm.tag _ _ ht
  have hmod : c.length % 65536 = c.length := Nat.mod_eq_of_lt hl
  have hp := Wire.cipher13_roundtrip ep seq c [] hl
  rw [List.append_nil] at hp
  have hs : serializeCipher13 ep seq c.length c = cipherHeader ep seq c.length ++ c := by
    simp [serializeCipher13, cipherHeader]
  have hh : (cipherHeader ep seq c.length).length = 5 := by simp [cipherHeader, beBytes_length]
  have hfl : flagsOf (wireOf ea suite k ep seq c) = cipherFlags ep := by rw [h3]; rfl
  have hseq : b.resolveSeq ep (seq % 65536) true ≤ r.expected + 32768 := by
    unfold Eng.resolveSeq
    rw [if_neg (by omega), hr, if_pos rfl]
    simpa using (Seq13.reconstruct_agrees (seq % 65536) r.expected 16 (by omega)).2.1
  have hd : ∀ a', eb.dec k.key (nonceXor k.iv (b.resolveSeq ep (seq % 65536) true)) a' c = none := by
    intro a'
    refine hst _ _ _ _ _ _ _ (nonce_length _ _ hiv) (nonce_length _ _ hiv) hc ?_
    intro heq
    have := Kdf.nonce_xor_injective k.iv _ _ hiv (by omega) (by omega) heq
    omega
  unfold recordParse
  simp only [hfl, f1, h.enc, Bool.and_self, if_true]
  rw [unmask_wire hm h ht, hmod]
  simp only [hp, f3]
  unfold openRecord
  simp only [h.bits, htag, h.keys, hs]
  rw [List.take_left' hh, List.drop_left' hh, hd]
  repeat' split
  all_goals first | rfl | contradiction

theorem parse_far {ea eb : Env} (hm : Matched ea eb T) (hst : Strict ea eb) {b : Eng} {suite : Nat} {k : Keys} {ep seq : Nat}
    {a p c : Bytes} {r : RecvEpoch} (h : Keyed b suite k ep) (he : 3 ≤ ep) (hr : b.appRecv.find? (·.epoch == ep) = some r)
    (ht : ea.suiteTag suite = some T) (hc : ea.enc k.key (nonceXor k.iv seq) a p = some c) (hl : c.length < 65536)
    (hiv : k.iv.length = 12) (hq : seq < 2 ^ 48) (hfar : r.expected + 32768 < seq) :
    parsePacket eb (wireOf ea suite k ep seq c) b = (.ok (), b) := by
  obtain ⟨o, ho, hob⟩ := wire_out ea suite k ep seq c hl
  have hsp : split13 (wireOf ea suite k ep seq c) = ([wireOf ea suite k ep seq c], .done) := by
    have := Wire.split13_concat [o] (by simpa using ho) none
    simpa [hob] using this
  have hrp : recordsParse eb (wireOf ea suite k ep seq c) b = (.ok [], b) := by
    unfold recordsParse
    rw [hsp]
    simp only [M.bind, parseSlices, far_wire hm hst h he hr ht hc hl hiv hq hfar, M.andThen, M.pure, classifyAll]
  unfold parsePacket
  simp only [M.bind, hrp, M.andThen]
  rfl

/-- The condition `Near` is needed. If the AEAD is any good, a receiver that missed more than 32768 records in a row is
never handed anything of this epoch again. -/
theorem lost_for_good (hA : RoleOk A ea keying) (hB : RoleOk B eb keying') (hfst : B.first B.app = false)
    (hm : Matched ea.toEnv eb.toEnv T) (hst : Strict ea.toEnv eb.toEnv) (henc : ∀ k n a p, (ea.enc k n a p).isSome)
    {suite : Nat} {k : Keys} (ht : ea.suiteTag suite = some T) (hiv : k.iv.length = 12) {a : Ses A.St} {ex : Nat}
    {old : List Nat} (ha : Sender a suite k) (n : Nat) (data : List Bytes)
    (hl : ∀ d ∈ data, d.length + 1 + T < 65536 ∧ 5 + d.length + 1 + T ≤ n)
    (hlen : a.eng.appSeq + data.length < 2 ^ 48) (arr : List Nat)
    (harr : ∀ i ∈ arr, i < data.length ∧ ex + 32768 < a.eng.appSeq + i) :
    ∀ b : Ses B.St, Listens b suite k a.eng.appEpoch ex old →
      received B eb n b (arr.map fun i => (sent A ea n a data).getD i []) = [] := by
  have hw := sent_sealed hA hm.sizes henc ht n data hl a ha hlen
  induction arr with
  | nil => intro b _; rfl
  | cons i arr ih =>
    intro b hb
    have ih := ih fun j hj => harr j (by simp [hj])
    obtain ⟨hi, hf⟩ := harr i (by simp)
    have hmem : data.getD i [] ∈ data := by
      rw [List.getD_eq_getElem?_getD, List.getElem?_eq_getElem hi]
      exact List.getElem_mem hi
    obtain ⟨h1, h2⟩ := hl _ hmem
    obtain ⟨c, hc, hwi⟩ := hw i hi
    have hcl : c.length < 65536 := by
      rw [hm.sizes.enc _ _ _ _ _ hc]; simp only [innerPlaintext, List.length_append, List.length_cons, List.length_nil]; omega
    have hp : parsePacket eb.toEnv ((sent A ea n a data).getD i []) b.eng = (.ok (), b.eng) := by
      rw [hwi]
      obtain ⟨r, hr, hex, _⟩ := hb
      exact parse_far hm hst (keyed hr ha.epoch) ha.epoch hr.held ht hc hcl hiv (by omega) (by omega)
    obtain ⟨b1, b2, b3, t, t', g1, g2, g3, g4⟩ := receiver_ignores hB hfst hb hp n
    rw [List.map_cons]
    unfold received
    rw [g1]
    dsimp only
    rw [g2]
    dsimp only
    rw [g3]
    dsimp only
    rw [ih b3 g4]
    rfl

/-! ### The hypotheses are met -/

theorem demo_listens : Listens (B := S13.role) demoServer 0x1301 demoKeys 3 0 [] :=
  ⟨demoEpoch, demo_receiver, rfl, rep_new⟩

attribute [local irreducible] demoClient demoServer sent received

/-- A client and its server after their handshake; the first datagram arrives last and twice, the third is lost. -/
theorem demo_case :
    received S13.role Demo.fullEnv 2000 demoServer ([3, 1, 3, 0, 0].map fun i =>
      (sent C13.role Demo.fullEnv 2000 demoClient [[1, 2], [3], [4, 0], List.replicate 20 7]).getD i []) =
    [List.replicate 20 7, [3], [1, 2]] := by
  obtain ⟨⟨_, _, _, _, _, _, _, h8, h9, _⟩, _⟩ := demo_facts
  have := stream_delivered (C13.roleOk Demo.fullEnv) (S13.roleOk Demo.fullEnv) rfl (matched_demo [29] true true)
    (fun _ _ _ _ => rfl) Recv12.search_ok_demo (suite := 0x1301) (k := demoKeys) rfl demo_sender
    (by rw [h8]; exact demo_listens) (by simp) 2000
    [[1, 2], [3], [4, 0], List.replicate 20 7] (by decide) (by rw [h9]; decide) [3, 1, 3, 0, 0] (by decide)
    (near_of_few (len := 4) (by omega) (by omega) (by decide))
  rw [show wanted [[1, 2], [3], [4, 0], List.replicate 20 7] [] [3, 1, 3, 0, 0] = [List.replicate 20 7, [3], [1, 2]] by decide] at this
  exact this

/-- Twelve bytes of a nonce. -/
def pad (n : Bytes) : Bytes := (n ++ List.replicate 12 0).take 12

theorem pad_length (n : Bytes) : (pad n).length = 12 := by simp [pad]

theorem pad_eq (n : Bytes) (h : n.length = 12) : pad n = n := by
  unfold pad
  rw [List.take_append_of_le_length (by omega), List.take_of_length_le (by omega)]

/-- An AEAD that ties the ciphertext to the nonce. -/
def strictEnv : PEnv :=
  { Demo.fullEnv with
    enc := fun _ n _ p => some (p ++ pad n)
    dec := fun _ n _ c => if c.drop (c.length - 12) = pad n then some (c.take (c.length - 12)) else none
    suiteTag := fun s => if s = 0x1301 then some 12 else none }

theorem strict_matched : Matched strictEnv.toEnv strictEnv.toEnv 12 where
  opens k n a p c h := by
    cases h
    have hl := pad_length n
    show (if (p ++ pad n).drop ((p ++ pad n).length - 12) = pad n then some ((p ++ pad n).take ((p ++ pad n).length - 12))
      else none) = some p
    rw [List.length_append, hl, Nat.add_sub_cancel, List.drop_left, List.take_left, if_pos rfl]
  sizes := {
    tag := by
      intro suite t h
      have h : (if suite = 0x1301 then some 12 else none) = some t := h
      split at h
      · cases h; rfl
      · cases h
    enc := by
      intro k n a p c h
      cases h
      simp [pad_length] }
  tag _ _ h := h
  mask := rfl

theorem strict_demo : Strict strictEnv.toEnv strictEnv.toEnv := by
  intro k n n' a a' p c h1 h2 h h3
  cases h
  show (if (p ++ pad n).drop ((p ++ pad n).length - 12) = pad n' then some ((p ++ pad n).take ((p ++ pad n).length - 12))
      else none) = none
  rw [List.length_append, pad_length, Nat.add_sub_cancel, List.drop_left, if_neg]
  rw [pad_eq n h1, pad_eq n' h2]
  exact fun h => h3 h.symm

def strictClient : Ses CSt := (Demo.clientRun strictEnv [.poll 2000]).2
def strictServer : Ses SSt := (Demo.serverRun strictEnv [.poll 2000]).2

theorem strict_facts :
    (strictClient.st = .awaitApplicationData ∧ strictClient.events = [] ∧ strictClient.eng.tx = [] ∧
      strictClient.eng.rx = [] ∧ strictClient.eng.suite = some 0x1301 ∧ strictClient.eng.slot 3 = .app ∧
      strictClient.eng.appSend = some demoKeys ∧ strictClient.eng.appEpoch = 3 ∧ strictClient.eng.appSeq = 0 ∧
      strictClient.eng.cfg.maxTx = 10) ∧
    (strictServer.st = .awaitApplicationData ∧ strictServer.events = [] ∧ strictServer.queued = [] ∧
      strictServer.pendingKu = false ∧ strictServer.eng.needsKu = false ∧ strictServer.eng.tx = [] ∧ strictServer.eng.rx = [] ∧
      strictServer.eng.closeSeq = none ∧ strictServer.eng.release = true ∧ strictServer.eng.peerEnc = true ∧
      strictServer.eng.suite = some 0x1301 ∧ strictServer.eng.resolveEpoch 3 = 3 ∧ strictServer.eng.appRecv = [demoEpoch] ∧
      strictServer.eng.cfg.maxRx = 30) := by decide +kernel

attribute [local irreducible] strictClient strictServer

theorem strict_sender : Sender (A := C13.role) strictClient 0x1301 demoKeys := by
  obtain ⟨⟨h1, h2, h3, h4, h5, h6, h7, h8, h9, h10⟩, _⟩ := strict_facts
  exact ⟨h1, h2, h3, h4, h5, by rw [h8]; exact h6, h7, by omega, by omega⟩

theorem strict_listens : Listens (B := S13.role) strictServer 0x1301 demoKeys 3 0 [] := by
  obtain ⟨_, h1, h2, h3, h4, h5, h6, h7, h8, h9, h10, h11, h12, h13, h14⟩ := strict_facts
  exact ⟨demoEpoch, ⟨h1, h2, h3, h4, h5, h6, h7, h8, h9, h10, h11, h12, by rw [h13]; rfl, rfl, .inr rfl, by omega⟩, rfl, rep_new⟩

/-- A client sends 40000 payloads to its server. Of the first 32769 none arrives, of the others all: the server's application
gets nothing. -/
theorem strict_case :
    received S13.role strictEnv 2000 strictServer (((List.range 40000).filter (32768 < ·)).map fun i =>
      (sent C13.role strictEnv 2000 strictClient (List.replicate 40000 [1, 2, 3])).getD i []) = [] := by
  obtain ⟨⟨_, _, _, _, _, _, _, h8, h9, _⟩, _⟩ := strict_facts
  refine lost_for_good (C13.roleOk strictEnv) (S13.roleOk strictEnv) rfl strict_matched strict_demo
    (fun _ _ _ _ => rfl) (suite := 0x1301) (k := demoKeys) rfl rfl strict_sender 2000 _ ?_ ?_ _ ?_ strictServer
    (ex := 0) (old := []) (by rw [h8]; exact strict_listens)
  · intro d hd
    rw [(List.mem_replicate.mp hd).2]
    decide
  · rw [h9, List.length_replicate]; decide
  · intro i hi
    obtain ⟨g1, g2⟩ := List.mem_filter.mp hi
    have g1 := List.mem_range.mp g1
    have g2 : 32768 < i := of_decide_eq_true g2
    rw [h9, List.length_replicate]
    omega

end Verif.Props.Net13

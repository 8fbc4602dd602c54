import Verif.Lemmas.Wired12
import Verif.Props.App12
/-!
# What a DTLS 1.2 session sends (C08, C09, C20, C33, C50)
-/
namespace Verif.Props.Send12
open Verif Verif.E12 Verif.Wire Verif.Aead Verif.M

/-- The datagrams among the outputs, in order. -/
def packets (os : List Output) : List Bytes :=
  os.filterMap fun
    | .eng (.packet p) => some p
    | _ => none

variable {env : PEnv} {cfg : Cfg} {R : Role} {s0 : Ses R.St}

theorem packets_eq {R : Role} {p : R.St → Bool} {os : List Output} {s : Ses R.St} (h : Hist R p os s) :
    packets os = (sentOf s.eng.log).reverse := by
  have h1 := h.outs
  have h2 : packets os = (os.filterMap Output.wire).filterMap fun
      | .packet b => some b
      | _ => none := by
    rw [List.filterMap_filterMap]
    unfold packets
    congr 1
    funext o
    cases o with
    | eng o => cases o <;> rfl
    | _ => rfl
  rw [h2, h1, List.filterMap_reverse]
  congr 1
  show ((s.eng.log.filter Ev.isOut).filterMap Ev.out).filterMap _ = _
  clear h h1 h2
  induction s.eng.log with
  | nil => rfl
  | cons e l ih =>
    rw [List.filter_cons]
    cases e <;> simp [sentOf, Ev.isOut, Ev.out, ih]

/-! ## The records on the wire: C33 (fresh numbers), C08 -/

theorem wired (h : Start env cfg R s0) (hd : DecShort env.toEnv) (cs : List Call) :
    ∃ rss : List (List Rec12), packets (outputs (run R env s0 cs).1) = rss.map wireOf ∧
      (rss.flatten.map recNum).Nodup ∧ ∀ r ∈ rss.flatten, ∃ plain, Made env.toEnv (run R env s0 cs).2.eng r plain := by
  have h0 : FreshInv s0.eng ∧ Wired env.toEnv s0.eng := by
    refine ⟨⟨by rw [h.log0]; nofun, by rw [h.log0]; simp [numbers]⟩, [], ?_, by simp, by simp⟩
    rw [h.log0, h.tx0]; rfl
  obtain ⟨p, hh⟩ := h.hist hd cs
  have hw := ((wired_inv env.toEnv).clear _ ((wired_inv env.toEnv).steps (h.steps' cs) h0)).2
  obtain ⟨rss, h1, h2, h3⟩ := hw
  refine ⟨rss, ?_, h2, fun r hr => (h3 r hr).imp fun p hp => hp.later (fun _ h => h) fun _ => ⟨rfl, rfl⟩⟩
  rw [packets_eq hh, ← h1, List.append_nil]

/-- A record as it must be sealed: under the session's write key, with the nonce `n` made from the
explicit part it carries or from its number, over the additional data for its number. -/
def SealedWith (env : PEnv) (s : Eng) (r : Rec12) (n : Bytes) : Prop :=
  ∃ key iv x plain ct, s.writeKey = some (key, iv) ∧ r.fragment = x ++ ct ∧
    recordNonce s.explicitLen iv x r.epoch r.seq = some n ∧
    env.enc key n (aad12 r.ctype r.epoch r.seq (plain.length % 65536)) plain = some ct

/-- **C08, partial; C33 (fresh numbers).** All datagrams handed out over the whole connection,
retransmissions included, are made of records no two of which have the same epoch and number. Those of
epoch 1, the only protected ones, are sealed with pairwise different nonces, if fewer than `2^48` of them
were made and, for suites with an explicit nonce, the random nonces drawn were different.

Missing from C08: the two conditions are not enforced by the code (`nonce_repeats`, `nonce_wraps`). -/
theorem nonces_differ_partial (h : Start env cfg R s0) (hd : DecShort env.toEnv) (cs : List Call)
    (hq : (run R env s0 cs).2.eng.seqN ≤ 2 ^ 48)
    (hr : (run R env s0 cs).2.eng.explicitLen = 8 → RandFresh env.toEnv (run R env s0 cs).2.eng.tick) :
    ∃ rss : List (List (Rec12 × Bytes)),
      packets (outputs (run R env s0 cs).1) = rss.map (fun rs => (rs.map fun x => serialize12 x.1).flatten) ∧
      (rss.flatten.map fun x => (x.1.epoch, x.1.seq)).Nodup ∧
      (∀ x ∈ rss.flatten, x.1.epoch = 0 ∨
        x.1.epoch = 1 ∧ SealedWith env (run R env s0 cs).2.eng x.1 x.2) ∧
      ((rss.flatten.filter fun x => x.1.epoch = 1).map (·.2)).Nodup := by
  obtain ⟨rss, h1, h2, h3⟩ := wired h hd cs
  have hn0 : NonceInv env.toEnv s0.eng := by
    refine ⟨by rw [h.log0]; nofun, fun _ _ => by rw [h.log0]; simp [nonces]⟩
  have hn := ((nonce_inv env.toEnv).steps (h.steps' cs) hn0).2 hq hr
  generalize (run R env s0 cs).2.eng = s at *
  -- the nonce of every record
  have hc : ∀ r : Rec12, ∃ n : Bytes, r ∈ rss.flatten → r.epoch = 0 ∨
      r.epoch = 1 ∧ SealedWith env s r n ∧ ∃ key iv, s.writeKey = some (key, iv) ∧
        Ev.sealed key n r.ctype 1 r.seq ∈ s.log := by
    intro r
    by_cases hm : r ∈ rss.flatten
    · obtain ⟨plain, hp⟩ := h3 r hm
      rcases hp.body with g | ⟨g, key, iv, x, n, ct, g1, g2, _, g4, g5, g6⟩
      · exact ⟨[], fun _ => .inl g.1⟩
      · exact ⟨n, fun _ => .inr ⟨g, ⟨key, iv, x, plain, ct, g1, g2, by rw [g]; exact g4, by rw [g]; exact g5⟩,
          key, iv, g1, g6⟩⟩
    · exact ⟨[], fun h => absurd h hm⟩
  let nonce : Rec12 → Bytes := fun r => (hc r).choose
  have hnon := fun r => (hc r).choose_spec
  have hflat : (rss.map fun rs => rs.map fun r => (r, nonce r)).flatten = rss.flatten.map fun r => (r, nonce r) := by
    rw [List.map_flatten]
  refine ⟨rss.map fun rs => rs.map fun r => (r, nonce r), ?_, ?_, ?_, ?_⟩
  · rw [h1, List.map_map]
    congr 1
    funext rs
    simp [wireOf, Function.comp_def]
  · rw [hflat, List.map_map]
    exact h2
  · rw [hflat]
    intro x hx
    obtain ⟨r, hr, rfl⟩ := List.mem_map.mp hx
    rcases hnon r hr with g | ⟨g1, g2, _⟩
    · exact .inl g
    · exact .inr ⟨g1, g2⟩
  · rw [hflat]
    have hp : rss.flatten.Pairwise fun a b => recNum a ≠ recNum b := List.pairwise_map.mp h2
    rw [List.Nodup, List.pairwise_map, List.pairwise_filter, List.pairwise_map]
    refine hp.imp_of_mem ?_
    intro a b ha hb hab hae hbe heq
    simp only [decide_eq_true_eq] at hae hbe
    rcases hnon a ha with g | ⟨_, _, ka, iva, ka1, ka2⟩
    · omega
    rcases hnon b hb with g | ⟨_, _, kb, ivb, kb1, kb2⟩
    · omega
    rw [ka1] at kb1
    cases kb1
    have ka2' : Ev.sealed ka (nonce a) a.ctype 1 a.seq ∈ s.log := ka2
    have kb2' : Ev.sealed ka (nonce b) b.ctype 1 b.seq ∈ s.log := kb2
    have heq : nonce a = nonce b := heq
    rw [← heq] at kb2'
    have := sealed_unique hn ka2' kb2'
    exact hab (by simp [recNum, hae, hbe, this])

/-- The hypotheses are met, for both kinds of suites, by clients that completed the handshake and sent
two records. -/
example : (Demo.clientRun Demo.pskEnv [.send [1], .send [2], .poll 2000]).2.eng.explicitLen = 8 ∧
    (Demo.clientRun Demo.pskEnv [.send [1], .send [2], .poll 2000]).2.eng.seqN = 3 ∧
    RandFresh Demo.pskEnv.toEnv (Demo.clientRun Demo.pskEnv [.send [1], .send [2], .poll 2000]).2.eng.tick := by
  refine ⟨by decide +kernel, by decide +kernel, ?_⟩
  have : (Demo.clientRun Demo.pskEnv [.send [1], .send [2], .poll 2000]).2.eng.tick ≤ 20 := by decide +kernel
  refine RandFresh.mono ?_ this
  intro i j hi hj
  have key : ∀ i < 20, ∀ j < 20, beBytes 8 i = beBytes 8 j → i = j := by decide +kernel
  exact key i hi j hj

example : (Demo.clientRun Demo.chachaEnv [.send [1], .send [2], .poll 2000]).2.eng.explicitLen = 0 ∧
    (Demo.clientRun Demo.chachaEnv [.send [1], .send [2], .poll 2000]).2.eng.seqN = 3 := by decide +kernel

/-- An environment whose random numbers repeat. -/
def stuckEnv : PEnv := { Demo.pskEnv with rand := fun _ n => List.replicate n 0 }

/-- Without the condition on the random numbers C08 fails: nothing in the code notices that the same
explicit nonce is drawn again, although the record number would have made it unique. -/
theorem nonce_repeats :
    let s := (run C12.role stuckEnv (C12.start stuckEnv Demo.cfg 0)
      (Demo.clientCalls stuckEnv ++ [.send [1], .send [2], .poll 2000])).2
    ∃ k, Ev.sealed k [1, 1, 1, 1, 0, 0, 0, 0, 0, 0, 0, 0] ctAppData 1 1 ∈ s.eng.log ∧
      Ev.sealed k [1, 1, 1, 1, 0, 0, 0, 0, 0, 0, 0, 0] ctAppData 1 2 ∈ s.eng.log :=
  ⟨[149], by decide +kernel⟩

/-- Without the bound on the number of records C08 fails: a record is still sealed with number `2^48 + q`,
with the nonce of record `q`. (In epoch 1 the number is cut to 48 bits.) -/
theorem nonce_wraps (iv : Bytes) (q : Nat) (hq : q < 2 ^ 48) :
    recordNonce 0 iv [] 1 (q + 2 ^ 48) = recordNonce 0 iv [] 1 q := by
  unfold recordNonce seq64
  simp only [if_true]
  have h1 : q + 2 ^ 48 = 1 <<< 48 ||| q := by
    have := Nat.two_pow_add_eq_or_of_lt hq 1
    rw [Nat.mul_one] at this
    rw [Nat.add_comm, this]
    rfl
  rw [h1, ← Nat.or_assoc, Nat.or_self]

/-! ## C09 -/

/-- **C09 (DTLS 1.2), partial.** If every payload passed to `send_application_data` fits a datagram (with
13 bytes of record header and `M` of protection), then every datagram handed out is at most `mtu` bytes
long; handshake messages of any length are fragmented accordingly. `Sizes` says what AEAD and random
numbers look like: `tag` bytes more, at most `M` in total; the real suites have `M = 24`, the least MTU
accepted by the configuration is 64.

Missing from C09: larger payloads go out in one datagram above the MTU (`payload_exceeds_mtu`). -/
theorem datagrams_fit_partial (h : Start env cfg R s0) (hd : DecShort env.toEnv) {tag M : Nat}
    (hz : Sizes env.toEnv tag M) (hm : 25 + M ≤ cfg.mtu) (cs : List Call)
    (hc : ∀ d, .send d ∈ cs → 13 + d.length + M ≤ cfg.mtu) :
    ∀ p ∈ packets (outputs (run R env s0 cs).1), p.length ≤ cfg.mtu := by
  intro p hp
  obtain ⟨q, hh⟩ := h.hist hd cs
  rw [packets_eq hh, List.mem_reverse] at hp
  have hm0 : s0.eng.cfg.mtu = cfg.mtu := by rw [h.cfg0]
  have h0 : SizeInv tag M s0.eng := by
    refine ⟨by omega, by rw [h.tx0]; nofun, by rw [h.saved0]; nofun, by rw [h.minProt0]; omega,
      by rw [h.suite0]; nofun, by rw [h.log0]; nofun⟩
  have hs := h.steps (ok := fun d => 13 + d.length + M ≤ cfg.mtu) (by simp; omega) (by simp; omega) cs hc
  obtain ⟨h1, h2⟩ := SizeInv.steps hz (fun f hf => by rw [hm0]; exact hf) hs h0
  have hmem : ∀ l : List Ev, p ∈ sentOf l → Ev.sent p ∈ l := by
    intro l hl
    induction l with
    | nil => cases hl
    | cons e l ih =>
      cases e <;> simp_all [sentOf]
      rcases hl with h | h
      · exact .inl h
      · exact .inr (ih h)
  have := h2.sent p (hmem _ hp)
  omega

theorem sizes_demo (a : Auth) (l : List Nat) (c r : Bool) : Sizes (Demo.env a l c r).toEnv 1 9 where
  enc k n a p c h := by
    simp only [Demo.env, Demo.baseEnv, Option.some.injEq] at h
    rw [← h]; simp
  rand i n := by simp [Demo.env, Demo.baseEnv]
  suite cs e m h := by
    simp only [Demo.env, Demo.baseEnv, Demo.params] at h
    split at h
    · cases h; omega
    · split at h
      · cases h; omega
      · cases h

/-- The hypotheses are met; here a payload fills the datagram exactly. -/
example : let rs := (Demo.clientRun Demo.pskEnv [.send (List.replicate 128 7), .poll 2000]).1
    25 + 9 ≤ Demo.cfg.mtu ∧ 13 + 128 + 9 ≤ Demo.cfg.mtu ∧
    ((packets (outputs rs)).getLast?.map (·.length)) = some 150 := by decide +kernel

/-- A longer payload exceeds the MTU: C09 fails. -/
theorem payload_exceeds_mtu :
    ∃ p ∈ packets (outputs (Demo.clientRun Demo.pskEnv [.send (List.replicate 200 7), .poll 2000]).1),
      p.length > Demo.cfg.mtu := by
  have : (packets (outputs (Demo.clientRun Demo.pskEnv [.send (List.replicate 200 7), .poll 2000]).1)).any
      (fun p => p.length > Demo.cfg.mtu) = true := by decide +kernel
  obtain ⟨p, h1, h2⟩ := List.any_eq_true.mp this
  exact ⟨p, h1, by simpa using h2⟩

/-! ## C20, C50 -/

/-- **C20 (bound).** At most `max_queue_tx` datagrams wait for transmission. -/
theorem tx_bounded (h : Start env cfg R s0) (cs : List Call) :
    (run R env s0 cs).2.eng.tx.length ≤ cfg.maxTx := by
  have := (txLen_inv env.toEnv).steps (h.steps' cs) (by rw [h.tx0]; simp)
  have hk : (run R env s0 cs).2.eng.cfg = cfg := by
    rw [← h.cfg0]
    refine Star.invariant (R := Step env.toEnv fun _ => True) (I := fun e => e.cfg = s0.eng.cfg) ?_ (h.steps' cs) rfl
    intro a b hs ha
    cases hs with
    | core g => rw [(Core.keep g).cfg]; exact ha
    | suite cs g => unfold setCipherSuite; split <;> exact ha
    | keys k g gs => exact ha
  rwa [hk] at this

/-- `r` joined the waiting datagrams: in a datagram of its own, or at the end of the last one. -/
def Joined (r : Rec12) (tx tx' : List Bytes) : Prop :=
  tx' = tx ++ [serialize12 r] ∨ ∃ init last, tx = init ++ [last] ∧ tx' = init ++ [last ++ serialize12 r]

/-- A connected session hands the payload to the engine. -/
theorem send_app (s : Ses R.St) (hst : s.st = R.app) (hne : R.app ≠ R.closed) (d : Bytes) :
    call R env s (.send d) = (.res (toApi (createRecord env.toEnv ctAppData 1 false false d s.eng).1),
      { s with eng := (createRecord env.toEnv ctAppData 1 false false d s.eng).2 }) := by
  have h1 : ¬ s.st = R.closed := by rw [hst]; exact hne
  have h2 : sendM R env d s = ((createRecord env.toEnv ctAppData 1 false false d s.eng).1,
      { s with eng := (createRecord env.toEnv ctAppData 1 false false d s.eng).2 }) := by
    show (if s.st = R.closed then _ else if s.st ≠ R.app then _ else _ : P R.St Unit) s = _
    rw [if_neg h1, if_neg (by simp [hst])]
    rfl
  show (Ret.res (toApi (sendM R env d s).1), (sendM R env d s).2) = _
  rw [h2]

/-- A record of application data made from `d` in state `s`. -/
structure AppRecord (env : PEnv) (s : Eng) (d : Bytes) (r : Rec12) : Prop where
  ctype : r.ctype = ctAppData
  version : r.version = verDtls12
  epoch : r.epoch = 1
  seq : r.seq = s.seqN
  length : r.length = r.fragment.length % 65536
  body : ∃ key iv x nonce ct, s.writeKey = some (key, iv) ∧ r.fragment = x ++ ct ∧
    (s.explicitLen = 0 ∧ x = [] ∨ s.explicitLen = 8 ∧ ∃ t, x = env.rand t 8) ∧
    recordNonce s.explicitLen iv x 1 r.seq = some nonce ∧
    env.enc key nonce (aad12 ctAppData 1 r.seq (d.length % 65536)) d = some ct

/-- **C20 (nothing is queued on failure).** `send_application_data` on a connected session either
returns Ok and queues exactly one record, sealed from exactly the payload, or returns an error (or panics)
and queues nothing. -/
theorem send_all_or_nothing (s : Ses R.St) (hst : s.st = R.app) (hne : R.app ≠ R.closed) (d : Bytes) :
    ((call R env s (.send d)).1 = .res .ok ∧
      ∃ r, AppRecord env s.eng d r ∧ Joined r s.eng.tx (call R env s (.send d)).2.eng.tx) ∨
    ((call R env s (.send d)).1 ≠ .res .ok ∧ (call R env s (.send d)).2.eng.tx = s.eng.tx ∧
      (call R env s (.send d)).2.eng.seqN = s.eng.seqN ∧ (call R env s (.send d)).2.eng.log = s.eng.log) := by
  rw [send_app s hst hne]
  refine createRecord_ind (motive := fun x =>
    (Ret.res (toApi x.1) = .res .ok ∧ ∃ r, AppRecord env s.eng d r ∧ Joined r s.eng.tx x.2.tx) ∨
    (Ret.res (toApi x.1) ≠ .res .ok ∧ x.2.tx = s.eng.tx ∧ x.2.seqN = s.eng.seqN ∧ x.2.log = s.eng.log))
    env.toEnv ctAppData 1 false false d s.eng ?_ ?_ ?_ ?_ ?_
  · intro _ _; exact .inr ⟨by simp [toApi], rfl, rfl, rfl⟩
  · intro _ _; exact .inr ⟨by simp [toApi], rfl, rfl, rfl⟩
  · intro _ t flt _ hf
    refine .inr ⟨?_, rfl, rfl, rfl⟩
    rcases hf with rfl | rfl <;> simp [toApi]
  · intro h; omega
  · intro _ _ _ key iv nonce ct h1 h2 h3 h4
    refine .inl ⟨rfl, ⟨ctAppData, verDtls12, 1, s.eng.seqN, (explicitNonce env.toEnv s.eng ++ ct).length % 65536,
      explicitNonce env.toEnv s.eng ++ ct⟩, ⟨rfl, rfl, rfl, rfl, rfl, key, iv, _, nonce, ct, h1, rfl, ?_, h3, h4⟩, ?_⟩
    · unfold explicitNonce
      rcases h2 with h | h
      · exact .inl ⟨h, by rw [if_neg (by omega)]⟩
      · exact .inr ⟨h, _, by rw [if_pos h]⟩
    · simp only [emitRecord, sealedState, saveEntry, pushWire]
      split
      · rename_i hc
        rcases List.eq_nil_or_concat s.eng.tx with h | ⟨q, l, h⟩
        · exact absurd h (canAppend_ne hc)
        · rw [List.concat_eq_append] at h
          refine .inr ⟨q, l, h, ?_⟩
          simp [h]
      · exact .inl rfl

/-- **C20 (a full queue refuses).** On a connected session whose queue is full and whose last datagram
has no room, `send_application_data` fails with TransmitQueueFull. -/
theorem send_full (h : Start env cfg R s0) (cs : List Call) (d : Bytes) (hne : R.app ≠ R.closed)
    (hst : (run R env s0 cs).2.st = R.app)
    (hf : (run R env s0 cs).2.eng.cfg.maxTx ≤ (run R env s0 cs).2.eng.tx.length)
    (hl : ∀ b, (run R env s0 cs).2.eng.tx.getLast? = some b →
      b.length + (13 + d.length + (run R env s0 cs).2.eng.minProt) > (run R env s0 cs).2.eng.cfg.mtu) :
    (call R env (run R env s0 cs).2 (.send d)).1 = .res (.err .transmitQueueFull) := by
  have hsu := h.suite_of_keys cs (h.app_keys cs hst)
  generalize (run R env s0 cs).2 = s at *
  have hca : canAppend s.eng false (13 + d.length + s.eng.minProt) = false := by
    unfold canAppend
    split
    · rename_i b hb
      have := hl b hb
      simp; omega
    · rfl
  rw [send_app s hst hne]
  unfold createRecord
  rw [if_neg (by simp [hsu])]
  simp [saveEntry, Eng.overhead, hca, hf, toApi]

/-- The hypotheses are met: a client whose queue is full. -/
example : let s := (Demo.clientRun Demo.pskEnv (List.replicate 10 (.send (List.replicate 128 7)))).2
    s.st = .awaitApplicationData ∧ s.eng.tx.length = 10 ∧
    (s.eng.tx.getLast?.map (·.length)) = some 150 ∧
    (call C12.role Demo.pskEnv s (.send [1])).1 = .res (.err .transmitQueueFull) := by decide +kernel

/-- **C50, partial.** When `send_application_data` accepts a payload that fits a record with protection, the
record queued has its length in the length field: whatever follows it, it parses back to exactly itself.

Missing from C50: a payload above that is neither refused nor emitted correctly (`payload_truncated`). -/
theorem length_preserved_partial {tag M : Nat} (hz : Sizes env.toEnv tag M) (s : Ses R.St) (hst : s.st = R.app)
    (hne : R.app ≠ R.closed) (d : Bytes) (hd : d.length + tag + 8 < 65536) (hq : s.eng.seqN < 2 ^ 48)
    (hok : (call R env s (.send d)).1 = .res .ok) :
    ∃ r, AppRecord env s.eng d r ∧ Joined r s.eng.tx (call R env s (.send d)).2.eng.tx ∧
      r.length = r.fragment.length ∧ r.fragment.length = s.eng.explicitLen + d.length + tag ∧
      ∀ rest, parse12 (serialize12 r ++ rest) 0 = .ok rest r := by
  rcases send_all_or_nothing s hst hne d (env := env) with ⟨_, r, hr, hj⟩ | ⟨h, _⟩
  · obtain ⟨key, iv, x, n, ct, _, h2, h3, _, h5⟩ := hr.body
    have h6 := hz.enc _ _ _ _ _ h5
    have hx : x.length = s.eng.explicitLen ∧ x.length ≤ 8 := by
      rcases h3 with ⟨h, rfl⟩ | ⟨h, t, rfl⟩
      · simp [h]
      · rw [hz.rand]; omega
    have hl : r.fragment.length = s.eng.explicitLen + d.length + tag := by
      rw [h2, List.length_append, h6]; omega
    have hlen : r.length = r.fragment.length := by rw [hr.length]; exact Nat.mod_eq_of_lt (by omega)
    refine ⟨r, hr, hj, hlen, hl, fun rest => Props.Wire.record12_roundtrip r rest ?_⟩
    refine ⟨.inr hr.version, by rw [hr.epoch]; omega, by rw [hr.seq]; exact hq, hlen, by omega, ?_⟩
    rw [hr.epoch]; intro h; omega
  · exact absurd hok h

example : (call C12.role Demo.pskEnv (Demo.clientRun Demo.pskEnv []).2 (.send [1, 2, 3])).1 = .res .ok := by
  decide +kernel

theorem createRecord_empty (e : Eng) (d : Bytes) (h1 : e.suite.isSome = true) (h2 : e.tx = [])
    (h3 : 0 < e.cfg.maxTx) (h4 : e.writeKey.map (·.2) = some [1, 1, 1, 1]) (h5 : e.explicitLen = 8)
    (h6 : ∀ k n a p, (env.enc k n a p).isSome = true) (h7 : ∀ t n, (env.rand t n).length = n) :
    (createRecord env.toEnv ctAppData 1 false false d e).1 = .ok () := by
  obtain ⟨u, h1⟩ := Option.isSome_iff_exists.mp h1
  obtain ⟨⟨key, iv⟩, h4, h⟩ := Option.map_eq_some_iff.mp h4
  cases h
  unfold createRecord
  rw [if_neg (by simp [h1])]
  simp only [saveEntry, canAppend, h2, List.getLast?_nil, Bool.false_eq_true, if_false, List.length_nil]
  rw [if_neg (by simp; omega), if_pos (Nat.le_refl 1)]
  unfold sealRecord
  rw [h4]
  simp only [h5]
  rw [if_neg (by omega)]
  have h : recordNonce 8 [1, 1, 1, 1] (explicitNonce env.toEnv e) 1 e.seqN = some ([1, 1, 1, 1] ++ env.rand e.tick 8) := by
    simp [recordNonce, explicitNonce, h5, nonceNew, h7]
  rw [h]
  obtain ⟨c, hc⟩ := Option.isSome_iff_exists.mp (h6 key ([1, 1, 1, 1] ++ env.rand e.tick 8)
    (aad12 ctAppData 1 e.seqN (d.length % 65536)) d)
  simp only [hc]

theorem truncated {tag M : Nat} (hz : Sizes env.toEnv tag M) (s : Ses R.St) (hst : s.st = R.app)
    (hne : R.app ≠ R.closed) (d : Bytes) (h1 : s.eng.suite.isSome = true) (h2 : s.eng.tx = [])
    (h3 : 0 < s.eng.cfg.maxTx) (h4 : s.eng.writeKey.map (·.2) = some [1, 1, 1, 1]) (h5 : s.eng.explicitLen = 8)
    (h6 : ∀ k n a p, (env.enc k n a p).isSome = true) (hd : d.length = 65536) :
    (call R env s (.send d)).1 = .res .ok ∧
    ∃ r, AppRecord env s.eng d r ∧ Joined r s.eng.tx (call R env s (.send d)).2.eng.tx ∧
      r.length ≠ r.fragment.length := by
  have hok : (call R env s (.send d)).1 = .res .ok := by
    rw [send_app s hst hne, createRecord_empty s.eng d h1 h2 h3 h4 h5 h6 hz.rand]
    rfl
  refine ⟨hok, ?_⟩
  rcases send_all_or_nothing s hst hne d (env := env) with ⟨_, r, hr, hj⟩ | ⟨h, _⟩
  · refine ⟨r, hr, hj, ?_⟩
    obtain ⟨key, iv, x, n, ct, _, h2, _, _, h5⟩ := hr.body
    have h6 := hz.enc _ _ _ _ _ h5
    rw [hr.length, h2, List.length_append, h6]
    omega
  · exact absurd hok h

/-- An established client. -/
def established : Ses CSt := (Demo.clientRun Demo.pskEnv []).2

theorem established_app : established.st = .awaitApplicationData := by decide +kernel
theorem truncated_demo (s : Ses CSt) (d : Bytes) (h1 : s.st = .awaitApplicationData)
    (h2 : s.eng.suite.isSome = true) (h3 : s.eng.tx = []) (h4 : 0 < s.eng.cfg.maxTx)
    (h5 : s.eng.writeKey.map (·.2) = some [1, 1, 1, 1]) (h6 : s.eng.explicitLen = 8) (hd : d.length = 65536) :
   (call C12.role Demo.pskEnv s (.send d)).1 = .res .ok ∧
    ∃ r, AppRecord Demo.pskEnv s.eng d r ∧
      Joined r s.eng.tx (call C12.role Demo.pskEnv s (.send d)).2.eng.tx ∧
      r.length ≠ r.fragment.length := 
  truncated (R := C12.role) (env := Demo.pskEnv) (sizes_demo .psk [0xC0A8] true false) s h1 (by decide) d
    h2 h3 h4 h5 h6
    (fun _ _ _ _ => rfl) hd

/-- C50 fails: a payload of 65536 bytes is accepted, and the record queued for it has a length field that
is not its length. -/
theorem payload_truncated :
    ∃ d : Bytes, d.length = 65536 ∧ (call C12.role Demo.pskEnv established (.send d)).1 = .res .ok ∧
    ∃ r, AppRecord Demo.pskEnv established.eng d r ∧
      Joined r established.eng.tx (call C12.role Demo.pskEnv established (.send d)).2.eng.tx ∧
      r.length ≠ r.fragment.length := by
  have h1 := established_app
  have h2 : established.eng.suite.isSome = true := by decide +kernel
  have h3 : established.eng.tx = [] := by decide +kernel
  have h4 : 0 < established.eng.cfg.maxTx := by decide +kernel
  have h5 : established.eng.writeKey.map (·.2) = some [1, 1, 1, 1] := by decide +kernel
  have h6 : established.eng.explicitLen = 8 := by decide +kernel
  exact ⟨_, List.length_replicate (a := 7), truncated_demo established _ h1 h2 h3 h4 h5 h6 List.length_replicate⟩

/-! ## C33 -/

/-- Type, epoch and content of the records queued, oldest first. -/
def contents (l : List Ev) : List (UInt8 × Nat × Bytes) :=
  (l.filterMap fun | .queued c e _ p => some (c, e, p) | _ => none).reverse

/-- The epoch an entry of the flight goes out with: there are only two write epochs. -/
def wireEpoch (x : Entry) : Nat := if x.epoch = 0 then 0 else 1

theorem resend_contents (l : List Entry) (fo : Bool) (e : Eng) :
    ∃ es, (resendLoop env.toEnv l fo e).2.log = es ++ e.log ∧
      ∃ sent rest, l = sent ++ rest ∧ contents es = sent.map (fun x => (x.ctype, wireEpoch x, x.fragment)) ∧
      ((resendLoop env.toEnv l fo e).1 = .ok () → rest = []) := by
  induction l generalizing fo e with
  | nil => exact ⟨[], rfl, [], [], rfl, rfl, fun _ => rfl⟩
  | cons x l ih =>
    have hone : ∃ es, (createRecord env.toEnv x.ctype x.epoch false fo x.fragment e).2.log = es ++ e.log ∧
        ((createRecord env.toEnv x.ctype x.epoch false fo x.fragment e).1 = .ok () ∧
          contents es = [(x.ctype, wireEpoch x, x.fragment)] ∨
         (∃ f, (createRecord env.toEnv x.ctype x.epoch false fo x.fragment e).1 = .fail f) ∧ es = []) := by
      refine createRecord_ind (motive := fun r => ∃ es, r.2.log = es ++ e.log ∧
        (r.1 = .ok () ∧ contents es = [(x.ctype, wireEpoch x, x.fragment)] ∨ (∃ f, r.1 = .fail f) ∧ es = []))
        env.toEnv x.ctype x.epoch false fo x.fragment e ?_ ?_ ?_ ?_ ?_
      · intro _ _; exact ⟨[], rfl, .inr ⟨⟨_, rfl⟩, rfl⟩⟩
      · intro _ _; exact ⟨[], rfl, .inr ⟨⟨_, rfl⟩, rfl⟩⟩
      · intro _ t f _ _; exact ⟨[], rfl, .inr ⟨⟨_, rfl⟩, rfl⟩⟩
      · intro h0 _
        exact ⟨[_], rfl, .inl ⟨rfl, by simp [contents, wireEpoch, h0]⟩⟩
      · intro h1 _ _ key iv nonce ct _ _ _ _
        refine ⟨[_, _], rfl, .inl ⟨rfl, ?_⟩⟩
        have : x.epoch ≠ 0 := by omega
        simp [contents, wireEpoch, this]
    obtain ⟨es, h1, h2⟩ := hone
    unfold resendLoop
    rcases h2 with ⟨h2, h3⟩ | ⟨⟨f, h2⟩, rfl⟩
    · obtain ⟨es', g1, sent, rest, g2, g3, g4⟩ := ih false
        (createRecord env.toEnv x.ctype x.epoch false fo x.fragment e).2
      have hb : M.bind (createRecord env.toEnv x.ctype x.epoch false fo x.fragment)
          (fun _ => resendLoop env.toEnv l false) e =
          resendLoop env.toEnv l false (createRecord env.toEnv x.ctype x.epoch false fo x.fragment e).2 := by
        unfold M.bind
        rw [show createRecord env.toEnv x.ctype x.epoch false fo x.fragment e = (.ok (), _) from
          Prod.ext h2 rfl]
        rfl
      rw [hb]
      refine ⟨es' ++ es, by rw [g1, h1, List.append_assoc], x :: sent, rest, by rw [g2]; rfl, ?_, g4⟩
      have : contents (es' ++ es) = contents es ++ contents es' := by simp [contents]
      rw [this, h3, g3]
      rfl
    · have hb : M.bind (createRecord env.toEnv x.ctype x.epoch false fo x.fragment)
          (fun _ => resendLoop env.toEnv l false) e =
          (.fail f, (createRecord env.toEnv x.ctype x.epoch false fo x.fragment e).2) := by
        unfold M.bind
        rw [show createRecord env.toEnv x.ctype x.epoch false fo x.fragment e = (.fail f, _) from
          Prod.ext h2 rfl]
        rfl
      rw [hb]
      exact ⟨[], h1, [], x :: l, rfl, rfl, nofun⟩

/-- **C33 (DTLS 1.2), same content.** A retransmission queues the records of the saved flight, in order,
with the same type, epoch and plaintext, all of them unless it fails, and keeps the flight saved. (DTLS 1.2
has no acknowledgements.) By `nonces_differ_partial` their numbers are new. -/
theorem resend_same_content (e : Eng) :
    ∃ es, (flightResend env.toEnv e).2.log = es ++ e.log ∧
      ∃ sent rest, e.saved = sent ++ rest ∧ contents es = sent.map (fun x => (x.ctype, wireEpoch x, x.fragment)) ∧
      ((flightResend env.toEnv e).1 = .ok () → rest = []) ∧ (flightResend env.toEnv e).2.saved = e.saved := by
  obtain ⟨es, h1, sent, rest, h2, h3, h4⟩ := resend_contents (env := env) e.saved (!e.release)
    { e with tx := if e.release then e.tx else [], saved := [] }
  exact ⟨es, h1, sent, rest, h2, h3, h4, rfl⟩

/-- **C33 (DTLS 1.2) at the API.** When the flight timer fires in `handle_timeout` and the retransmission
succeeds, exactly the records of the saved flight are queued again. -/
theorem timeout_resends (e : Eng) (now : Nat)
    (hf : (e.timers.handle e.cfg.handshakeTimeout now (env.jitter e.tick)).2 = .resend)
    (hok : (handleTimeout env.toEnv now e).1 = .ok ()) :
    ∃ es, (handleTimeout env.toEnv now e).2.log = es ++ e.log ∧
      contents es = e.saved.map (fun x => (x.ctype, wireEpoch x, x.fragment)) := by
  unfold handleTimeout at *
  simp only [hf] at *
  obtain ⟨es, h1, sent, rest, h2, h3, h4, _⟩ := resend_same_content (env := env)
    { e with timers := (e.timers.handle e.cfg.handshakeTimeout now (env.jitter e.tick)).1, tick := e.tick + 1 }
  have := h4 hok
  subst this
  refine ⟨es, h1, ?_⟩
  rw [h3]
  simp at h2
  rw [h2]

/-- The hypotheses are met: the first flight of a client, retransmitted. -/
def flightState : Ses CSt :=
  (run C12.role Demo.pskEnv (C12.start Demo.pskEnv Demo.cfg 0) [.timeout 0, .poll 2000, .poll 2000, .timeout 1]).2

example : (flightState.eng.timers.handle Demo.cfg.handshakeTimeout 5000000000 0).2 = .resend ∧
    flightState.eng.saved.length = 1 ∧ flightState.eng.cfg = Demo.cfg ∧
    (call C12.role Demo.pskEnv flightState (.timeout 5000000000)).1 = .res .ok := by decide +kernel

end Verif.Props.Send12

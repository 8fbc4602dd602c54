import Verif.Lemmas.Wired13
import Verif.Props.Demo13
import Verif.Props.Wire
/-!
# What a DTLS 1.3 session sends (C07, C09, C20, C33, C50)
-/
namespace Verif.Props.Send13
open Verif Verif.E13 Verif.Wire Verif.Aead Verif.M
open Verif.E12 (outputs Call Ret toApi)

variable {env : PEnv} {cfg : Cfg} {R : Role} {s0 : Ses R.St}

/-! ## C07 -/

theorem bounded (h : Start env cfg R s0) (cs : List Call) :
    ∀ k c ep n f, Ev.queued k c ep n f ∈ (run R env s0 cs).2.eng.log → n < 2 ^ 48 - 1 := by
  have hq := h.txLog (ok := fun _ => True) (G := fun _ _ _ _ => True)
    (Q := fun _ _ l => ∀ k c ep n f, Ev.queued k c ep n f ∈ l → n < maxSeq) ?_ ?_ ?_ cs (fun _ _ => trivial)
  · intro k c ep n f hm
    have := hq _ _ _ _ _ (List.mem_filter.mpr ⟨hm, rfl⟩)
    unfold maxSeq at this
    exact this
  · refine txInv_of env.toEnv (Q := fun _ _ l => ∀ k c ep n f, Ev.queued k c ep n f ∈ l → n < maxSeq)
      (G := fun _ _ _ _ => True) ?_ ?_ ?_ ?_ (fun _ _ _ h => h) (fun _ _ _ _ _ _ _ => trivial)
      (fun _ _ _ _ _ _ => trivial) (fun _ _ _ _ _ => trivial)
    · intro s c f h _ _ hm k c' ep n f' hin
      rcases List.mem_cons.mp hin with hin | hin
      · cases hin; exact hm
      · exact h _ _ _ _ _ hin
    · intro s c ep f suite tag k ct h _ _ _ hm k c' ep n f' hin
      rcases List.mem_cons.mp hin with hin | hin
      · cases hin; exact hm
      · exact h _ _ _ _ _ hin
    · intro _ _ l e h1 _ h k c' ep n f' hin
      rcases List.mem_cons.mp hin with hin | hin
      · exact absurd hin.symm (h1 _ _ _ _ _)
      · exact h _ _ _ _ _ hin
    · intro _ _ l e x h1 _ h k c' ep n f' hin
      rcases List.mem_cons.mp hin with hin | hin
      · exact h _ _ _ _ _ (by rw [hin]; simp)
      · rcases List.mem_cons.mp hin with hin | hin
        · exact absurd hin.symm (h1 _ _ _ _ _)
        · exact h _ _ _ _ _ (List.mem_cons_of_mem _ hin)
  · intro _ p rest l h k c ep n f hin
    rcases List.mem_cons.mp hin with hin | hin
    · cases hin
    · exact h _ _ _ _ _ hin
  · intro _ _ _ _ _ hin; cases hin

/-- **C07 (no number above `2^48 - 2`).** All datagrams handed out over a whole connection are made of
records; every one has a number of at most `2^48 - 2`. -/
theorem numbers_bounded (h : Start env cfg R s0) (cs : List Call) :
    ∃ rss : List (List Sent),
      packets (outputs (run R env s0 cs).1) = rss.map (fun rs => (rs.map Sent.wire).flatten) ∧
      ∀ x ∈ rss.flatten, x.Made env.toEnv ∧ x.seq ≤ 2 ^ 48 - 2 := by
  obtain ⟨rss, h1, h2, h3⟩ := h.wired cs
  refine ⟨rss, h1, fun x hx => ⟨h3 x hx, ?_⟩⟩
  have hm : x.ev ∈ (run R env s0 cs).2.eng.log := by
    have := h2.subset (List.mem_map_of_mem (f := Sent.ev) hx)
    exact (List.mem_filter.mp (List.mem_reverse.mp this)).1
  have := bounded h cs _ _ _ _ _ hm
  omega

/-- Something was sent: the handshake and two records. -/
example : (packets (outputs (Demo.clientRun Demo.fullEnv [.send [1], .send [2], .poll 2000]).1)).length = 4 ∧
    (Demo.clientRun Demo.fullEnv [.send [1], .send [2], .poll 2000]).2.eng.appSeq = 2 := by decide +kernel

/-! ## `send_application_data` -/

/-- `wire` joined the waiting datagrams: in a datagram of its own, or at the end of the last one. -/
def Joined (wire : Bytes) (tx tx' : List Bytes) : Prop :=
  tx' = tx ++ [wire] ∨ ∃ init last, tx = init ++ [last] ∧ tx' = init ++ [last ++ wire]

theorem joined_pushTx (tx : List Bytes) (a : Bool) (w : Bytes) (h : a = true → tx ≠ []) :
    Joined w tx (pushTx tx a w) := by
  unfold pushTx
  split
  · rename_i ha
    rcases List.eq_nil_or_concat tx with h' | ⟨q, l, h'⟩
    · exact absurd h' (h ha)
    · rw [List.concat_eq_append] at h'
      exact .inr ⟨q, l, h', by simp [h']⟩
  · exact .inl rfl

/-- A connected session hands the payload to the engine. -/
theorem send_app (s : Ses R.St) (hst : s.st = R.app) (hne : R.app ≠ R.closed) (hnh : R.app ≠ R.halfClosed)
    (d : Bytes) :
    call R env s (.send d) = (.res (toApi (createCipher env.toEnv ctAppData s.eng.appEpoch false d s.eng).1),
      { s with eng := (createCipher env.toEnv ctAppData s.eng.appEpoch false d s.eng).2 }) := by
  have h2 : sendM R env d s = ((createCipher env.toEnv ctAppData s.eng.appEpoch false d s.eng).1,
      { s with eng := (createCipher env.toEnv ctAppData s.eng.appEpoch false d s.eng).2 }) := by
    show (if s.st = R.closed ∨ s.st = R.halfClosed then _ else if s.st ≠ R.app then _ else _ : P R.St Unit) s = _
    rw [if_neg (by rw [hst]; exact fun h => h.elim hne hnh), if_neg (by simp [hst])]
    rfl
  show (Ret.res (toApi (sendM R env d s).1), (sendM R env d s).2) = _
  rw [h2]

theorem createCipher_unsaved (c : UInt8) (ep : Nat) (d : Bytes) (e : Eng) :
    createCipher env.toEnv c ep false d e = sealCipher env.toEnv c ep d e := rfl

theorem createCipher_tx_same {ep : Nat} {c : UInt8} (e : Eng) (d : Bytes) :
    ((createCipher env.toEnv c ep false d e).1 = .ok () ∧ e.slotSeq (e.slot ep) < maxSeq ∧
      ∃ x : Sent, x.Made env.toEnv ∧ x.keys = e.slotKeys (e.slot ep) ∧ x.keys ≠ none ∧ x.ctype = c ∧
        x.epoch = ep ∧ x.seq = e.slotSeq (e.slot ep) ∧ x.plain = d ∧
        Joined x.wire e.tx (createCipher env.toEnv c ep false d e).2.tx) ∨
    ((∃ f, (createCipher env.toEnv c ep false d e).1 = .fail f ∧ f ≠ .transient) ∧
      (createCipher env.toEnv c ep false d e).2.tx = e.tx ∧
      (createCipher env.toEnv c ep false d e).2.appSeq = e.appSeq) := by
  refine createCipher_ind (motive := fun r =>
    (r.1 = .ok () ∧ e.slotSeq (e.slot ep) < maxSeq ∧
      ∃ x : Sent, x.Made env.toEnv ∧ x.keys = e.slotKeys (e.slot ep) ∧ x.keys ≠ none ∧ x.ctype = c ∧
        x.epoch = ep ∧ x.seq = e.slotSeq (e.slot ep) ∧ x.plain = d ∧ Joined x.wire e.tx r.2.tx) ∨
    ((∃ f, r.1 = .fail f ∧ f ≠ .transient) ∧ r.2.tx = e.tx ∧ r.2.appSeq = e.appSeq))
    env.toEnv c ep false d e ?_ ?_ ?_ ?_
  · intro _ _; exact .inr ⟨⟨_, rfl, by simp⟩, rfl, rfl⟩
  · intro flt hf _
    refine .inr ⟨⟨_, rfl, ?_⟩, rfl, rfl⟩
    rcases hf with rfl | rfl <;> simp
  · intro suite tag k ct flt _ _ hf
    refine .inr ⟨⟨_, rfl, ?_⟩, rfl, rfl⟩
    rcases hf with rfl | rfl <;> simp
  · intro suite tag k ct hs _ hr hm
    refine .inl ⟨rfl, hm, ⟨some k, c, ep, e.slotSeq (e.slot ep), d,
      wireOf env.toEnv suite k ep (e.slotSeq (e.slot ep)) ct⟩, ⟨suite, tag, ct, hs.htag, hs.enc, rfl⟩, hs.keys.symm,
      by simp, rfl, rfl, rfl, rfl, ?_⟩
    have := congrArg TxPart.tx (emitCipher_q env.toEnv (sealedSt (savedAs e false (entryOf e c ep d)) k ep) suite
      (e.slot ep) k c ep (canAppend e (5 + ct.length)) d ct)
    have h2 : (emitCipher env.toEnv (sealedSt (savedAs e false (entryOf e c ep d)) k ep) suite
      (e.slot ep) k c ep (canAppend e (5 + ct.length)) d ct).tx = _ := this
    rw [h2]
    exact joined_pushTx _ _ _ (fun h => canAppend_ne h)

/-- **C20 (nothing is queued on failure).** `send_application_data` on a connected session either returns
Ok and queues exactly one record, sealed from exactly the payload in the current epoch, or returns an error
(or panics), queues nothing and uses no number. -/
theorem send_all_or_nothing (s : Ses R.St) (hst : s.st = R.app) (hne : R.app ≠ R.closed)
    (hnh : R.app ≠ R.halfClosed) (d : Bytes) :
    ((call R env s (.send d)).1 = .res .ok ∧
      ∃ x : Sent, x.Made env.toEnv ∧ x.keys ≠ none ∧ x.ctype = ctAppData ∧ x.epoch = s.eng.appEpoch ∧ x.plain = d ∧
        Joined x.wire s.eng.tx (call R env s (.send d)).2.eng.tx) ∨
    ((call R env s (.send d)).1 ≠ .res .ok ∧ (call R env s (.send d)).2.eng.tx = s.eng.tx ∧
      (call R env s (.send d)).2.eng.appSeq = s.eng.appSeq) := by
  rw [send_app s hst hne hnh]
  rcases createCipher_tx_same (env := env) (c := ctAppData) (ep := s.eng.appEpoch) s.eng d with
    ⟨h1, _, x, g1, _, g2, g3, g4, _, g5, g6⟩ | ⟨⟨f, h1, hf⟩, h2, h3⟩
  · exact .inl ⟨by rw [h1]; rfl, x, g1, g2, g3, g4, g5, g6⟩
  · refine .inr ⟨?_, h2, h3⟩
    rw [h1]
    cases f <;> simp [toApi] at hf ⊢

/-- **C07 (an exhausted epoch refuses).** If the number of the next application record is not below
`2^48 - 1`, `send_application_data` fails and emits nothing; it reports an error (it does not panic) if the
negotiated suite is one the provider has. -/
theorem exhausted_send (s : Ses R.St) (hst : s.st = R.app) (hne : R.app ≠ R.closed) (hnh : R.app ≠ R.halfClosed)
    (d : Bytes) (hx : 2 ^ 48 - 1 ≤ s.eng.slotSeq (s.eng.slot s.eng.appEpoch)) :
    (call R env s (.send d)).2.eng.tx = s.eng.tx ∧
    ((call R env s (.send d)).1 = .res .panic ∨ ∃ e, (call R env s (.send d)).1 = .res (.err e)) ∧
    (∀ T, s.eng.tag env.toEnv = some T → ∃ e, (call R env s (.send d)).1 = .res (.err e)) := by
  rw [send_app s hst hne hnh]
  have key : (createCipher env.toEnv ctAppData s.eng.appEpoch false d s.eng).2.tx = s.eng.tx ∧
      ((createCipher env.toEnv ctAppData s.eng.appEpoch false d s.eng).1 = .fail .panic ∧
        s.eng.tag env.toEnv = none ∨
      ∃ e, (createCipher env.toEnv ctAppData s.eng.appEpoch false d s.eng).1 = .fail (.fatal e)) := by
    rw [createCipher_unsaved]
    unfold sealCipher
    split
    · split
      · exact ⟨rfl, .inr ⟨_, rfl⟩⟩
      · dsimp only
        split
        · exact ⟨rfl, .inr ⟨_, rfl⟩⟩
        · unfold queueCipher
          dsimp only
          split
          · exact ⟨rfl, .inr ⟨_, rfl⟩⟩
          · split
            · exact ⟨rfl, .inr ⟨_, rfl⟩⟩
            · rename_i hm
              exact absurd hx hm
    · rename_i hn
      refine ⟨rfl, .inl ⟨rfl, ?_⟩⟩
      cases h1 : s.eng.suite with
      | none => simp [Eng.tag, h1]
      | some n =>
        cases h2 : s.eng.tag env.toEnv with
        | none => rfl
        | some t => exact absurd h2 (hn n t h1)
  refine ⟨key.1, ?_, ?_⟩
  · rcases key.2 with ⟨h, _⟩ | ⟨e, h⟩
    · left; rw [h]; rfl
    · right; exact ⟨e, by rw [h]; rfl⟩
  · intro T hT
    rcases key.2 with ⟨_, h⟩ | ⟨e, h⟩
    · rw [hT] at h; cases h
    · exact ⟨e, by rw [h]; rfl⟩

/-- The last number is used, then sending fails. -/
def nearEnd : Ses CSt :=
  let s := (Demo.clientRun Demo.plainEnv []).2
  { s with eng := { s.eng with appSeq := 2 ^ 48 - 2 } }

example : nearEnd.st = .awaitApplicationData ∧
    (call C13.role Demo.plainEnv nearEnd (.send [1])).1 = .res .ok ∧
    (call C13.role Demo.plainEnv (call C13.role Demo.plainEnv nearEnd (.send [1])).2 (.send [2])).1 =
      .res (.err .crypto) := by decide +kernel

/-! ## C20 -/

/-- **C20 (bound).** At most `max_queue_tx` datagrams wait for transmission. -/
theorem tx_bounded (h : Start env cfg R s0) (cs : List Call) :
    (run R env s0 cs).2.eng.tx.length ≤ cfg.maxTx := by
  have push : ∀ (s : Eng) w n, s.tx.length ≤ s.cfg.maxTx → hasRoom s n →
      (pushTx s.tx (canAppend s n) w).length ≤ s.cfg.maxTx := by
    intro s w n h hr
    unfold pushTx
    split
    · rename_i hc
      have := canAppend_ne hc
      have : 0 < s.tx.length := List.length_pos_iff.mpr this
      simp; omega
    · rename_i hc
      rcases hr with hr | hr
      · exact absurd hr hc
      · simp; omega
  have := h.txLog (ok := fun _ => True) (G := fun _ _ _ _ => True)
    (Q := fun c tx _ => c = cfg ∧ tx.length ≤ c.maxTx) ?_ ?_ ⟨rfl, Nat.zero_le _⟩ cs (fun _ _ => trivial)
  · rw [this.1] at this; exact this.2
  · exact txInv_of env.toEnv (Q := fun c tx _ => c = cfg ∧ tx.length ≤ c.maxTx) (G := fun _ _ _ _ => True)
      (fun s _ _ h _ hr _ => ⟨h.1, push s _ _ h.2 hr⟩)
      (fun s _ _ _ _ _ _ _ h _ _ hr _ => ⟨h.1, push s _ _ h.2 hr⟩)
      (fun _ _ _ _ _ _ h => h) (fun _ _ _ _ _ _ _ h => h) (fun _ _ _ h => ⟨h.1, Nat.zero_le _⟩)
      (fun _ _ _ _ _ _ _ => trivial) (fun _ _ _ _ _ _ => trivial) (fun _ _ _ _ _ => trivial)
  · intro c p rest l h
    simp only [List.length_cons] at h
    exact ⟨h.1, by omega⟩

/-- **C20 (a full queue refuses).** On a connected session with keys whose queue is full and whose last
datagram has no room for the record, `send_application_data` fails with TransmitQueueFull (and by
`send_all_or_nothing` queues nothing). -/
theorem send_full (s : Ses R.St) (hst : s.st = R.app) (hne : R.app ≠ R.closed) (hnh : R.app ≠ R.halfClosed)
    (d : Bytes) {T : Nat} {k : Keys} (ht : s.eng.tag env.toEnv = some T)
    (hk : s.eng.slotKeys (s.eng.slot s.eng.appEpoch) = some k)
    (he : ∀ n a p, ∃ c, env.enc k.key n a p = some c ∧ c.length = p.length + T)
    (hf : s.eng.cfg.maxTx ≤ s.eng.tx.length)
    (hl : ∀ b, s.eng.tx.getLast? = some b → s.eng.sealedDg = true ∨ b.length + (6 + d.length + T) > s.eng.cfg.mtu) :
    (call R env s (.send d)).1 = .res (.err .transmitQueueFull) := by
  rw [send_app s hst hne hnh]
  have key : (createCipher env.toEnv ctAppData s.eng.appEpoch false d s.eng).1 = .fail (.fatal .transmitQueueFull) := by
    rw [createCipher_unsaved]
    unfold sealCipher
    cases hsu : s.eng.suite with
    | none => simp [Eng.tag, hsu] at ht
    | some suite =>
      rw [ht]
      dsimp only
      rw [hk]
      dsimp only
      obtain ⟨c, hc, hcl⟩ := he (nonceXor k.iv (s.eng.slotSeq (s.eng.slot s.eng.appEpoch)))
        (cipherHeader s.eng.appEpoch (s.eng.slotSeq (s.eng.slot s.eng.appEpoch))
          ((innerPlaintext ctAppData d).length + T)) (innerPlaintext ctAppData d)
      rw [hc]
      dsimp only
      unfold queueCipher
      have hca : canAppend s.eng (5 + c.length) = false := by
        unfold canAppend
        split
        · rename_i b hb
          have hin : (innerPlaintext ctAppData d).length = d.length + 1 := by simp [innerPlaintext]
          rcases hl b hb with h | h
          · simp [h]
          · simp; omega
        · rfl
      refine congrArg Prod.fst (if_pos ?_)
      show (!canAppend s.eng (5 + c.length) && decide (s.eng.tx.length ≥ s.eng.cfg.maxTx)) = true
      simp [hca, hf]
  show Ret.res (toApi _) = _
  rw [key]
  rfl

/-- The hypotheses are met: a client whose queue is full. -/
example : let s := (Demo.clientRun Demo.plainEnv (List.replicate 10 (.send (List.replicate 143 7)))).2
    s.st = .awaitApplicationData ∧ s.eng.tx.length = 10 ∧ s.eng.tag Demo.plainEnv.toEnv = some 1 ∧
    (s.eng.slotKeys (s.eng.slot s.eng.appEpoch)).isSome = true ∧
    (s.eng.tx.getLast?.map (·.length)) = some 150 ∧
    (call C13.role Demo.plainEnv s (.send [1])).1 = .res (.err .transmitQueueFull) := by decide +kernel

/-! ## C09 -/

/-- Sizes of protected records: the suites have a tag of `T` bytes, and that is what protection adds. -/
structure Sizes (env : Env) (T : Nat) : Prop where
  tag : ∀ suite t, env.suiteTag suite = some t → t = T
  enc : ∀ k n a p c, env.enc k n a p = some c → c.length = p.length + T

theorem sizes_demo (l : List Nat) (c r : Bool) : Sizes (Demo.env l c r).toEnv 1 where
  tag suite t h := by
    simp only [Demo.env, Demo.baseEnv] at h
    split at h
    · cases h; rfl
    · cases h
  enc k n a p c h := by
    simp only [Demo.env, Demo.baseEnv, Option.some.injEq] at h
    rw [← h]; simp

theorem maskSeq_length (m : UInt8 × UInt8) (b : Bytes) : (maskSeq m b).length = b.length := by
  unfold maskSeq; split <;> rfl

theorem wireOf_length (env : Env) (suite : Nat) (k : Keys) (ep seq : Nat) (ct : Bytes) :
    (wireOf env suite k ep seq ct).length = 5 + ct.length := by
  unfold wireOf
  rw [maskSeq_length]
  simp [serializeCipher13, beBytes_length]
  omega

theorem serializePlain13_length (c : UInt8) (a b l : Nat) (f : Bytes) :
    (serializePlain13 c a b l f).length = 13 + f.length := by
  simp [serializePlain13, beBytes_length]
  omega

theorem pushTx_fits {s : Eng} {n : Nat} {w : Bytes} (hw : w.length = n) (hn : n ≤ s.cfg.mtu)
    (h : ∀ b ∈ s.tx, b.length ≤ s.cfg.mtu) : ∀ b ∈ pushTx s.tx (canAppend s n) w, b.length ≤ s.cfg.mtu := by
  intro b hb
  unfold pushTx at hb
  split at hb
  · rename_i hc
    rcases List.mem_append.mp hb with hb | hb
    · exact h b (List.dropLast_subset _ hb)
    · rw [List.mem_singleton.mp hb]
      unfold canAppend at hc
      split at hc
      · rename_i l hl
        simp only [Bool.and_eq_true, decide_eq_true_eq] at hc
        rw [hl]
        simp only [Option.getD_some, List.length_append]
        omega
      · cases hc
  · rcases List.mem_append.mp hb with hb | hb
    · exact h b hb
    · rw [List.mem_singleton.mp hb]; omega

/-- Datagrams waiting or handed out fit; the application epoch is not 0. -/
structure Fits (m : Nat) (q : TxPart) : Prop where
  mtu : q.cfg.mtu = m
  app : q.appEpoch ≠ 0
  tx : ∀ b ∈ q.tx, b.length ≤ m
  sent : ∀ b ∈ sentOf q.log, b.length ≤ m

/-- Records fit. -/
def RecFits (mtu T : Nat) (ep : Nat) (f : Bytes) : Prop :=
  (ep = 0 → 13 + f.length ≤ mtu) ∧ (ep ≠ 0 → 6 + f.length + T ≤ mtu)

theorem Fits.log {mtu : Nat} {q : TxPart} (h : Fits mtu q) {l : List Ev} (hl : sentOf l = sentOf q.log) :
    Fits mtu { q with log := l } := ⟨h.mtu, h.app, h.tx, by show ∀ b ∈ sentOf l, _; rw [hl]; exact h.sent⟩

theorem fits_inv {env : Env} {mtu T : Nat} (hz : Sizes env T) (hm : 527 ≤ mtu) (hT : 520 + T ≤ mtu) :
    TxInv env (fun d => 13 + d.length ≤ mtu ∧ 6 + d.length + T ≤ mtu) (Fits mtu)
      (fun c _ _ ep f => c.mtu = mtu → RecFits mtu T ep f) where
  plain s c f h g _ _ := by
    have hm : s.cfg.mtu = mtu := h.mtu
    rw [emitPlain_q]
    refine ⟨h.mtu, h.app, ?_, h.sent⟩
    rw [← hm]
    exact pushTx_fits (serializePlain13_length ..) (by rw [hm]; exact (g hm).1 rfl) (by rw [hm]; exact h.tx)
  sealed s k ep h := by
    rw [sealedSt_q]
    exact h.log rfl
  cipher s c ep f suite tag k ct h g hep hs _ _ := by
    have hm : s.cfg.mtu = mtu := h.mtu
    have hl := hz.enc _ _ _ _ _ hs.enc
    have hin : (innerPlaintext c f).length = f.length + 1 := by simp [innerPlaintext]
    have he0 : ep ≠ 0 := by
      rcases hep with h1 | h1
      · exact h1
      · rw [h1]; exact h.app
    have := (g hm).2 he0
    rw [emitCipher_q]
    obtain ⟨_, _, _, _, _, hc⟩ := countSent_q (sealedSt s k ep) (s.slot ep) ep
    rw [hc, sealedSt_q]
    refine ⟨h.mtu, h.app, ?_, h.sent⟩
    rw [← hm]
    exact pushTx_fits (wireOf_length ..) (by rw [hm]; omega) (by rw [hm]; exact h.tx)
  sealDg _ h := ⟨h.mtu, h.app, h.tx, h.sent⟩
  lost _ h := ⟨h.mtu, h.app, h.tx, h.sent⟩
  rotate s cur new suite secret h _ _ _ _ _ _ := by
    rw [rotateSend_q]
    exact ⟨h.mtu, Nat.succ_ne_zero _, h.tx, h.sent⟩
  ku s r h := ⟨h.mtu, h.app, h.tx, h.sent⟩
  asked _ h := ⟨h.mtu, h.app, h.tx, h.sent⟩
  abort s h := ⟨h.mtu, h.app, by simp, h.sent⟩
  hs s ep f tag h he hl hmt := by
    rw [hmt] at hl
    rcases he with rfl | ⟨rfl, he⟩
    · simp only [fixedOverhead, if_true] at hl
      exact ⟨fun _ => by omega, fun h => absurd rfl h⟩
    · have ht : tag = T := by
        unfold Eng.tag at he
        obtain ⟨su, _, h2⟩ := Option.bind_eq_some_iff.mp he
        exact hz.tag _ _ h2
      simp only [fixedOverhead] at hl
      rw [if_neg (by omega)] at hl
      exact ⟨fun h => absurd h (by omega), fun _ => by omega⟩
  kuRec s n r h _ := by
    have : (keyUpdateMsg n r).length = 13 := by simp [keyUpdateMsg, serializeHs, serializeHsHeader, beBytes_length]
    unfold RecFits
    omega
  ackRec s ep f h _ hl _ := by unfold RecFits; omega
  alertRec s h _ := by unfold RecFits; simp; omega
  dataRec s d h hd _ := by unfold RecFits; omega

/-- **C09 (DTLS 1.3), partial.** If the MTU has room for a full ACK (514 bytes and protection) and every
payload passed to `send_application_data` fits a datagram with its 6 bytes of header and content type and
`T` of tag, then every datagram handed out is at most `mtu` bytes long; handshake messages of any length
are fragmented accordingly.

Missing from C09: larger payloads go out in one datagram above the MTU (`payload_exceeds_mtu`), and with a
smaller MTU an ACK can exceed it (`ack_exceeds_mtu`). -/
theorem datagrams_fit_partial (h : Start env cfg R s0) {T : Nat} (hz : Sizes env.toEnv T)
    (hm : 527 ≤ cfg.mtu) (hT : 520 + T ≤ cfg.mtu) (cs : List Call)
    (hc : ∀ d, .send d ∈ cs → 13 + d.length ≤ cfg.mtu ∧ 6 + d.length + T ≤ cfg.mtu) :
    ∀ p ∈ packets (outputs (run R env s0 cs).1), p.length ≤ cfg.mtu := by
  have hq := (h.tx (fits_inv hz hm hT) (fun _ _ h => ⟨h.mtu, h.app, h.tx, h.sent⟩)
    (keyFrame_of (fits_inv hz hm hT).toTxHs (fun _ _ h => ⟨h.mtu, h.app, h.tx, h.sent⟩) (fun _ h => ⟨h.mtu, h.app, h.tx, h.sent⟩)
      (fun _ _ h => ⟨h.mtu, h.app, h.tx, h.sent⟩) (fun _ h => ⟨h.mtu, (by decide : (3 : Nat) ≠ 0), h.tx, h.sent⟩)
      (fun _ _ _ _ _ _ h => h)) ?_ (fun n _ => ⟨rfl, (by decide : (3 : Nat) ≠ 0), (fun _ h => nomatch h),
        (fun _ h => nomatch h)⟩) cs hc).q
  · intro p hp
    obtain ⟨_, hr⟩ := h.roleOk
    have hs := (run_sent hr cs s0 (by rw [h.saved0.2.1]; simp)).1
    have := hq.sent p (by
      show p ∈ sentOf (List.filter Ev.isTx _)
      rw [sentOf_filter, hs]; simp [hp])
    exact this
  · intro s p rest h ht
    have htx : ∀ b ∈ s.tx, b.length ≤ cfg.mtu := h.tx
    rw [ht] at htx
    refine ⟨h.mtu, h.app, fun b hb => htx b (by simp [hb]), ?_⟩
    intro b hb
    rcases List.mem_cons.mp hb with rfl | hb
    · exact htx _ (by simp)
    · exact h.sent b hb

/-- The hypotheses are met: with an MTU of 600, a payload that fills the datagram exactly. -/
def cfg600 : Cfg := { Demo.cfg with mtu := 600 }
example : let s : List Ret × Ses CSt := (run C13.role Demo.plainEnv (C13.start Demo.plainEnv cfg600 0)
      (Demo.clientCalls Demo.plainEnv ++ [.send (List.replicate 587 7), .poll 2000]))
    527 ≤ cfg600.mtu ∧ 520 + 1 ≤ cfg600.mtu ∧ 13 + 587 ≤ cfg600.mtu ∧ s.2.st = CSt.awaitApplicationData ∧
    ((packets (outputs s.1)).getLast?.map (·.length)) = some 594 := by decide +kernel

/-- A longer payload exceeds the MTU: C09 fails. -/
theorem payload_exceeds_mtu :
    ∃ p ∈ packets (outputs (Demo.clientRun Demo.plainEnv [.send (List.replicate 200 7), .poll 2000]).1),
      p.length > Demo.cfg.mtu := by
  have : (packets (outputs (Demo.clientRun Demo.plainEnv [.send (List.replicate 200 7), .poll 2000]).1)).any
      (fun p => p.length > Demo.cfg.mtu) = true := by decide +kernel
  obtain ⟨p, h1, h2⟩ := List.any_eq_true.mp this
  exact ⟨p, h1, by simpa using h2⟩

/-- A client with a certificate of 200 bytes; both sides with the least MTU that a configuration accepts. -/
def bigCertEnv : PEnv :=
  { Demo.fullEnv with certificateBody := fun ctx => UInt8.ofNat ctx.length :: (ctx ++ List.replicate 200 77) }
def cfg64 : Cfg := { Demo.cfg with mtu := 64 }
def smallDuo : Demo.Duo :=
  let d : Demo.Duo := { client := (call C13.role bigCertEnv (C13.start bigCertEnv cfg64 0) (.timeout 0)).2
                        server := (call S13.role Demo.fullEnv (S13.start Demo.fullEnv cfg64 0 false) (.timeout 0)).2
                        cCalls := [.timeout 0], sCalls := [.timeout 0] }
  let r := Demo.round bigCertEnv Demo.fullEnv
  r (r (r (r d)))

/-- C09 also fails without application data: the ACK that completes the handshake of a server lists every
record of the client's flight and is not limited by the MTU; here it has 137 bytes with an MTU of 64. -/
theorem ack_exceeds_mtu :
    ∃ p ∈ packets (outputs (run S13.role Demo.fullEnv (S13.start Demo.fullEnv cfg64 0 false) smallDuo.sCalls).1),
      p.length > cfg64.mtu := by
  have : (packets (outputs (run S13.role Demo.fullEnv (S13.start Demo.fullEnv cfg64 0 false) smallDuo.sCalls).1)).any
      (fun p => p.length > cfg64.mtu) = true := by decide +kernel
  obtain ⟨p, h1, h2⟩ := List.any_eq_true.mp this
  exact ⟨p, h1, by simpa using h2⟩

/-! ## C50 -/

theorem maskSeq_maskSeq (m : UInt8 × UInt8) (b : Bytes) : maskSeq m (maskSeq m b) = b := by
  have x : ∀ a c : UInt8, a ^^^ c ^^^ c = a := by
    intro a c; rw [UInt8.xor_assoc, UInt8.xor_self, UInt8.xor_zero]
  match b with
  | [] => rfl
  | [_] => rfl
  | [_, _] => rfl
  | f :: a :: b :: l => simp [maskSeq, x]

/-- **C50 (DTLS 1.3), partial.** When `send_application_data` accepts a payload that fits a record with
content type and tag, the record queued has its length in the length field: with the record number
unmasked it parses, whatever follows it, to a fragment that is the whole ciphertext of exactly the payload.

Missing from C50: a payload above that is neither refused nor emitted correctly (`payload_truncated`). -/
theorem length_preserved_partial {T : Nat} (hz : Sizes env.toEnv T) (s : Ses R.St) (hst : s.st = R.app)
    (hne : R.app ≠ R.closed) (hnh : R.app ≠ R.halfClosed) (d : Bytes) (hd : d.length + 1 + T < 65536)
    (hok : (call R env s (.send d)).1 = .res .ok) :
    ∃ (wire ct : Bytes) (k : Keys) (seq : Nat) (mask : UInt8 × UInt8),
      Joined wire s.eng.tx (call R env s (.send d)).2.eng.tx ∧
      (∃ aad, env.enc k.key (nonceXor k.iv seq) aad (d ++ [ctAppData]) = some ct) ∧
      ct.length = d.length + 1 + T ∧ wire.length = 5 + ct.length ∧
      ∀ rest, parse13 (maskSeq mask wire ++ rest) = .ok rest
        { ctype := 23, epoch := s.eng.appEpoch % 4, seq := seq % 2 ^ 16, length := ct.length, headerLen := 5,
          fragment := ct } := by
  rcases send_all_or_nothing s hst hne hnh d (env := env) with ⟨_, x, hx, h2, h3, h4, h5, h6⟩ | ⟨h, _⟩
  · unfold Sent.Made at hx
    split at hx
    · rename_i hk; exact absurd hk h2
    · rename_i k hk
      obtain ⟨suite, tag, ct, ht, he, hw⟩ := hx
      have hl := hz.enc _ _ _ _ _ he
      rw [h3, h5] at hl
      have hin : (innerPlaintext ctAppData d).length = d.length + 1 := by simp [innerPlaintext]
      rw [hin] at hl
      rw [h3, h5] at he
      refine ⟨x.wire, ct, k, x.seq, snMaskOf env.toEnv suite k.sn ct, h6, ⟨_, he⟩, hl, ?_, ?_⟩
      · rw [hw, wireOf_length]
      · intro rest
        rw [hw, wireOf, maskSeq_maskSeq, Nat.mod_eq_of_lt (by omega), h4]
        exact Props.Wire.cipher13_roundtrip _ _ _ _ (by omega)
  · exact absurd hok h

example : (call C13.role Demo.plainEnv (Demo.clientRun Demo.plainEnv []).2 (.send [1, 2, 3])).1 = .res .ok := by
  decide +kernel

theorem truncated {T : Nat} (hz : Sizes env.toEnv T) (s : Ses R.St) (hst : s.st = R.app)
    (hne : R.app ≠ R.closed) (hnh : R.app ≠ R.halfClosed) (d : Bytes) (hT : s.eng.tag env.toEnv = some T)
    (hk : (s.eng.slotKeys (s.eng.slot s.eng.appEpoch)).isSome) (h2 : s.eng.tx = [])
    (h3 : 0 < s.eng.cfg.maxTx) (h4 : s.eng.slotSeq (s.eng.slot s.eng.appEpoch) < maxSeq)
    (h6 : ∀ k n a p, (env.enc k n a p).isSome = true) (hd : d.length + 1 + T = 65536) :
    (call R env s (.send d)).1 = .res .ok ∧ ∃ wire : Bytes, (call R env s (.send d)).2.eng.tx = [wire] ∧
      wire.length = 65541 ∧ recordEnd13 wire = some (some 5) := by
  obtain ⟨k, hk⟩ := Option.isSome_iff_exists.mp hk
  obtain ⟨suite, hsu, hsT⟩ := Option.bind_eq_some_iff.mp hT
  obtain ⟨ct, hc⟩ := Option.isSome_iff_exists.mp (h6 k.key (nonceXor k.iv (s.eng.slotSeq (s.eng.slot s.eng.appEpoch)))
    (cipherHeader s.eng.appEpoch (s.eng.slotSeq (s.eng.slot s.eng.appEpoch))
      ((innerPlaintext ctAppData d).length + T)) (innerPlaintext ctAppData d))
  have hl := hz.enc _ _ _ _ _ hc
  have hin : (innerPlaintext ctAppData d).length = d.length + 1 := by simp [innerPlaintext]
  have hok : (createCipher env.toEnv ctAppData s.eng.appEpoch false d s.eng).1 = .ok () := by
    rw [createCipher_unsaved]
    unfold sealCipher
    rw [hsu, hT]
    dsimp only
    rw [hk]
    dsimp only
    rw [hc]
    dsimp only
    unfold queueCipher
    dsimp only
    rw [if_neg, if_neg]
    · show ¬ (s.eng.slotSeq (s.eng.slot s.eng.appEpoch) ≥ maxSeq)
      omega
    · rw [h2]
      simp
      omega
  have hcall : (call R env s (.send d)).1 = .res .ok := by
    rw [send_app s hst hne hnh]
    show Ret.res (toApi _) = _
    rw [hok]; rfl
  refine ⟨hcall, ?_⟩
  rcases send_all_or_nothing s hst hne hnh d (env := env) with ⟨_, x, hx, g2, g3, g4, g5, g6⟩ | ⟨h, _⟩
  · refine ⟨x.wire, ?_, ?_⟩
    · rcases g6 with h | ⟨_, _, h, _⟩
      · rw [h, h2]; rfl
      · rw [h2] at h; simp at h
    · unfold Sent.Made at hx
      split at hx
      · rename_i hk; exact absurd hk g2
      · rename_i k hk
        obtain ⟨suite, tag, ct, ht, he, hw⟩ := hx
        have hl := hz.enc _ _ _ _ _ he
        rw [g3, g5, hin] at hl
        have hl : ct.length = 65536 := by omega
        refine ⟨by rw [hw, wireOf_length, hl], ?_⟩
        rw [hw, wireOf, hl, g4]
        obtain ⟨f1, f2, f3, f4, f5⟩ := cipherFlags_spec s.eng.appEpoch
        obtain ⟨a, b, hab⟩ : ∃ a b, beBytes 2 x.seq = [a, b] := by
          have := beBytes_length 2 x.seq
          match h : beBytes 2 x.seq with
          | [] => rw [h] at this; cases this
          | [a] => rw [h] at this; cases this
          | [a, b] => exact ⟨a, b, rfl⟩
          | a :: b :: c :: l => rw [h] at this; simp at this
        have hz : beBytes 2 (65536 % 2 ^ 16) = [0, 0] := by decide
        simp only [serializeCipher13, hab, hz, List.cons_append, List.nil_append, maskSeq, recordEnd13, f1, f2,
          f3, f4, if_true, Bool.false_eq_true, if_false, List.length_cons, List.drop_succ_cons, List.drop_zero,
          List.take_succ_cons, List.take_zero]
        rw [if_neg (by omega), if_neg (by omega)]
        rfl
  · exact absurd hcall h

/-- C50 fails: a payload of 65534 bytes is accepted with the one-byte tag of the toy cipher, and the datagram
queued for it has 65541 bytes but announces a record that ends after its header. -/
theorem payload_truncated :
    ∃ d : Bytes, d.length = 65534 ∧
      (call C13.role Demo.plainEnv (Demo.clientRun Demo.plainEnv []).2 (.send d)).1 = .res .ok ∧
      ∃ wire : Bytes, (call C13.role Demo.plainEnv (Demo.clientRun Demo.plainEnv []).2 (.send d)).2.eng.tx = [wire] ∧
        wire.length = 65541 ∧ recordEnd13 wire = some (some 5) := by
  refine ⟨List.replicate 65534 7, List.length_replicate, ?_⟩
  refine truncated (R := C13.role) (env := Demo.plainEnv) (sizes_demo _ _ _) _ ?_ (by decide) (by decide) _ ?_ ?_ ?_ ?_ ?_
    (fun _ _ _ _ => rfl) (by rw [List.length_replicate])
  all_goals decide +kernel

/-! ## C33 -/

/-- Type, epoch, number and content of a record queued or of an entry of the saved flight. -/
abbrev Item := UInt8 × Nat × Nat × Bytes

/-- The records queued, oldest first. -/
def contents (l : List Ev) : List Item :=
  (l.filterMap fun | .queued _ c e n p => some (c, e, n, p) | _ => none).reverse

theorem contents_append (a b : List Ev) : contents (a ++ b) = contents b ++ contents a := by
  unfold contents; simp

/-- An entry of the flight, with the number it was last sent with. -/
def item (x : Entry) : Item := (x.ctype, x.epoch, x.sendSeq, x.fragment)

/-- All but the number. -/
def Item.same (a b : Item) : Prop := a.1 = b.1 ∧ a.2.1 = b.2.1 ∧ a.2.2.2 = b.2.2.2

theorem plain_contents (c : UInt8) (f : Bytes) (e : Eng) :
    ∃ es, (createPlain c false f e).2.log = es ++ e.log ∧
      ((createPlain c false f e).1 = .ok () ∧ contents es = [(c, 0, e.seq0, f)] ∨
       (∃ flt, (createPlain c false f e).1 = .fail flt) ∧ contents es = []) := by
  refine createPlain_ind (motive := fun r => ∃ es, r.2.log = es ++ e.log ∧
    (r.1 = .ok () ∧ contents es = [(c, 0, e.seq0, f)] ∨ (∃ flt, r.1 = .fail flt) ∧ contents es = []))
    c false f e ?_ ?_ ?_
  · intro h; cases h
  · intro flt _ _; exact ⟨[], rfl, .inr ⟨⟨_, rfl⟩, rfl⟩⟩
  · intro _ _ _
    refine ⟨[.queued none c 0 e.seq0 f], ?_, .inl ⟨rfl, rfl⟩⟩
    unfold emitPlain pushWire
    split <;> rfl

theorem cipher_contents (c : UInt8) (ep : Nat) (f : Bytes) (e : Eng) :
    ∃ es, (createCipher env.toEnv c ep false f e).2.log = es ++ e.log ∧
      ((createCipher env.toEnv c ep false f e).1 = .ok () ∧ contents es = [(c, ep, e.slotSeq (e.slot ep), f)] ∨
       (∃ flt, (createCipher env.toEnv c ep false f e).1 = .fail flt) ∧ contents es = []) := by
  refine createCipher_ind (motive := fun r => ∃ es, r.2.log = es ++ e.log ∧
    (r.1 = .ok () ∧ contents es = [(c, ep, e.slotSeq (e.slot ep), f)] ∨
      (∃ flt, r.1 = .fail flt) ∧ contents es = []))
    env.toEnv c ep false f e ?_ ?_ ?_ ?_
  · intro h; cases h
  · intro flt _ _; exact ⟨[], rfl, .inr ⟨⟨_, rfl⟩, rfl⟩⟩
  · intro suite tag k ct flt _ _ _
    exact ⟨[_], rfl, .inr ⟨⟨_, rfl⟩, rfl⟩⟩
  · intro suite tag k ct _ _ _ _
    exact ⟨[_, _], rfl, .inl ⟨rfl, rfl⟩⟩

theorem entry_contents (x : Entry) (e : Eng) :
    ∃ es, (resendEntry env.toEnv x e).2.log = es ++ e.log ∧
      ((∃ n, (resendEntry env.toEnv x e).1 = .ok { x with sendSeq := n } ∧
        contents es = [item { x with sendSeq := n }]) ∨
       (∃ flt, (resendEntry env.toEnv x e).1 = .fail flt) ∧ contents es = []) := by
  unfold resendEntry
  split
  · rename_i h0
    obtain ⟨es, h1, h⟩ := plain_contents x.ctype x.fragment e
    rcases hm : createPlain x.ctype false x.fragment e with ⟨r, e'⟩
    rw [hm] at h h1
    rcases h with ⟨h2, h3⟩ | ⟨⟨flt, h2⟩, h3⟩ <;> dsimp only at h2 <;> subst h2
    · refine ⟨es, ?_, .inl ⟨e.seq0, ?_, ?_⟩⟩
      · simp only [M.bind, M.andThen, hm]; exact h1
      · simp only [M.bind, M.andThen, hm]; rfl
      · rw [h3]; unfold item; rw [h0]
    · refine ⟨es, ?_, .inr ⟨⟨flt, ?_⟩, h3⟩⟩
      · simp only [M.bind, M.andThen, hm]; exact h1
      · simp only [M.bind, M.andThen, hm]
  · obtain ⟨es, h1, h⟩ := cipher_contents (env := env) x.ctype x.epoch x.fragment e
    rcases hm : createCipher env.toEnv x.ctype x.epoch false x.fragment e with ⟨r, e'⟩
    rw [hm] at h h1
    rcases h with ⟨h2, h3⟩ | ⟨⟨flt, h2⟩, h3⟩ <;> dsimp only at h2 <;> subst h2
    · refine ⟨es, ?_, .inl ⟨e.slotSeq (e.slot x.epoch), ?_, h3⟩⟩
      · simp only [M.bind, M.andThen, hm]; exact h1
      · simp only [M.bind, M.andThen, hm]; rfl
    · refine ⟨es, ?_, .inr ⟨⟨flt, ?_⟩, h3⟩⟩
      · simp only [M.bind, M.andThen, hm]; exact h1
      · simp only [M.bind, M.andThen, hm]

/-- The flight `l'` is `l` with the entries that are not acknowledged renumbered. -/
inductive Renumbered : List Entry → List Entry → Prop
  | nil : Renumbered [] []
  | acked {x l l'} : x.acked = true → Renumbered l l' → Renumbered (x :: l) (x :: l')
  | again {x l l'} (n : Nat) : x.acked = false → Renumbered l l' →
      Renumbered (x :: l) ({ x with sendSeq := n } :: l')

/-- `a` has the types, epochs and contents of `b`, in order. -/
def SameItems (a b : List Item) : Prop :=
  a.map (fun i => (i.1, i.2.1, i.2.2.2)) = b.map (fun i => (i.1, i.2.1, i.2.2.2))

/-- The entries of a flight that are to be sent again. -/
def openItems (l : List Entry) : List Item := (l.filter (fun x => !x.acked)).map item

theorem Renumbered.same {l l' : List Entry} (h : Renumbered l l') : SameItems (openItems l') (openItems l) := by
  induction h with
  | nil => rfl
  | acked h _ ih => simp only [SameItems, openItems, List.filter_cons, h] at *; exact ih
  | again n h _ ih =>
    simp only [SameItems, openItems, List.filter_cons, h, Bool.not_false, if_true, List.map_cons] at *
    rw [ih]; rfl

theorem resend_contents (l : List Entry) (e : Eng) :
    ∃ es, (resendLoop env.toEnv l e).2.log = es ++ e.log ∧
      (∃ sent rest, openItems l = sent ++ rest ∧ SameItems (contents es) sent) ∧
      ∀ l', (resendLoop env.toEnv l e).1 = .ok l' → Renumbered l l' ∧ contents es = openItems l' := by
  induction l generalizing e with
  | nil => exact ⟨[], rfl, ⟨[], [], rfl, rfl⟩, fun l' h => by cases h; exact ⟨.nil, rfl⟩⟩
  | cons x l ih =>
    unfold resendLoop
    split
    · rename_i hx
      obtain ⟨es, h1, ⟨sent, rest, h2, h3⟩, h4⟩ := ih e
      refine ⟨es, ?_, ⟨sent, rest, ?_, h3⟩, ?_⟩
      · rw [M.bind_snd]; split <;> exact h1
      · rw [← h2]; simp [openItems, hx]
      · intro l' h
        rcases hm : resendLoop env.toEnv l e with ⟨r, e'⟩
        cases r with
        | fail f => simp [M.bind, M.andThen, hm] at h
        | ok l1 =>
          simp only [M.bind, M.andThen, hm] at h
          cases h
          obtain ⟨g1, g2⟩ := h4 l1 (by rw [hm])
          exact ⟨.acked hx g1, by rw [g2]; simp [openItems, hx]⟩
    · rename_i hx
      have hx : x.acked = false := by simpa using hx
      obtain ⟨es, h1, h⟩ := entry_contents (env := env) x e
      rcases hm : resendEntry env.toEnv x e with ⟨r, e'⟩
      rw [hm] at h h1
      rcases h with ⟨n, h2, h3⟩ | ⟨⟨flt, h2⟩, h3⟩ <;> dsimp only at h1 h2 <;> subst h2
      · obtain ⟨es', g1, ⟨sent, rest, g2, g3⟩, g4⟩ := ih e'
        refine ⟨es' ++ es, ?_, ⟨item x :: sent, rest, ?_, ?_⟩, ?_⟩
        · simp only [M.bind, M.andThen, hm]
          rcases hl : resendLoop env.toEnv l e' with ⟨r2, e2⟩
          rw [hl] at g1
          cases r2 <;> (dsimp only [M.pure]; rw [g1, h1, List.append_assoc])
        · simp [openItems, hx] at g2 ⊢; exact g2
        · unfold SameItems at *
          rw [contents_append, h3, List.map_append, g3]; rfl
        · intro l' h
          simp only [M.bind, M.andThen, hm] at h
          rcases hl : resendLoop env.toEnv l e' with ⟨r2, e2⟩
          rw [hl] at h
          cases r2 with
          | fail f => simp at h
          | ok l1 =>
            cases h
            obtain ⟨k1, k2⟩ := g4 l1 (by rw [hl])
            exact ⟨.again n hx k1, by rw [contents_append, h3, k2]; simp [openItems, hx]⟩
      · refine ⟨es, ?_, ⟨[], openItems (x :: l), rfl, by rw [h3]; rfl⟩, ?_⟩
        · simp only [M.bind, M.andThen, hm]; exact h1
        · intro l' h
          simp only [M.bind, M.andThen, hm] at h
          cases h

/-- **C33 (DTLS 1.3).** Retransmitting a flight queues records of exactly the types, epochs and contents of
the saved entries that the peer has not acknowledged, in order, up to the point where it fails. If it succeeds
the saved flight is the same but for the numbers, the numbers remembered are those of the records queued, and
all of it has been queued. -/
theorem resend_same_content (e : Eng) :
    ∃ es, (flightResend env.toEnv e).2.log = es ++ e.log ∧
      (∃ sent rest, openItems e.saved = sent ++ rest ∧ SameItems (contents es) sent) ∧
      ((flightResend env.toEnv e).1 = .ok () → Renumbered e.saved (flightResend env.toEnv e).2.saved ∧
        contents es = openItems (flightResend env.toEnv e).2.saved ∧ SameItems (contents es) (openItems e.saved)) := by
  obtain ⟨es, h1, h2, h3⟩ := resend_contents (env := env) e.saved { e with saved := [], sealedDg := true }
  unfold flightResend
  rcases hl : resendLoop env.toEnv e.saved { e with saved := [], sealedDg := true } with ⟨r, e'⟩
  rw [hl] at h1 h3
  refine ⟨es, ?_, h2, ?_⟩
  · simp only [M.bind, M.andThen, hl]
    cases r <;> exact h1
  · simp only [M.bind, M.andThen, hl]
    cases r with
    | fail f => intro h; cases h
    | ok l' =>
      intro _
      obtain ⟨g1, g2⟩ := h3 l' rfl
      refine ⟨g1, g2, ?_⟩
      rw [g2]
      exact g1.same

theorem ackDuty_contents (now : Nat) (e : Eng) :
    ∃ es, (ackDuty env.toEnv now e).2.log = es ++ e.log ∧ ∀ i ∈ contents es, i.1 = ctAck := by
  have hlog : (scheduleAck now e).log = e.log := by
    unfold scheduleAck; repeat' split
    all_goals rfl
  unfold ackDuty flushAck
  rw [← hlog]
  generalize scheduleAck now e = s
  split
  · exact ⟨[], rfl, nofun⟩
  · split
    · exact ⟨[], rfl, nofun⟩
    · dsimp only
      split
      · exact ⟨[], rfl, nofun⟩
      · split
        · exact ⟨[], rfl, nofun⟩
        · obtain ⟨es, h1, h⟩ := cipher_contents (env := env) ctAck 2 (ackBody (bufferedNumbers s))
            { s with ackDeadline := none }
          refine ⟨es, h1, ?_⟩
          rcases h with ⟨_, h⟩ | ⟨_, h⟩ <;> rw [h] <;> simp

/-- **C33 (DTLS 1.3) at the API.** When the flight timer fires in `handle_timeout` and the retransmission
succeeds, exactly the unacknowledged records of the saved flight are queued again, followed at most by an ACK. -/
theorem timeout_resends (e : Eng) (now : Nat)
    (hf : (e.timers.handle e.cfg.handshakeTimeout now (env.jitter e.tick)).2 = .resend)
    (hok : (handleTimeout env.toEnv now e).1 = .ok ()) :
    ∃ es, (handleTimeout env.toEnv now e).2.log = es ++ e.log ∧
      ∃ again acks, contents es = again ++ acks ∧ SameItems again (openItems e.saved) ∧ ∀ i ∈ acks, i.1 = ctAck := by
  unfold handleTimeout at *
  simp only [hf] at *
  obtain ⟨es, h1, _, h3⟩ := resend_same_content (env := env)
    { e with timers := (e.timers.handle e.cfg.handshakeTimeout now (env.jitter e.tick)).1, tick := e.tick + 1 }
  rcases hl : flightResend env.toEnv
    { e with timers := (e.timers.handle e.cfg.handshakeTimeout now (env.jitter e.tick)).1, tick := e.tick + 1 } with ⟨r, e'⟩
  rw [hl] at h1 h3
  simp only [M.bind, M.andThen, hl] at hok ⊢
  cases r with
  | fail f => cases hok
  | ok u =>
    obtain ⟨es', g1, g2⟩ := ackDuty_contents (env := env) now e'
    refine ⟨es' ++ es, ?_, contents es, contents es', contents_append _ _, (h3 rfl).2.2, g2⟩
    rw [g1]
    show es' ++ e'.log = _
    rw [h1, List.append_assoc]

/-- The flight timer fires in a client that has sent its first flight: its ClientHello goes out again. -/
def waiting : Ses CSt := (run C13.role Demo.plainEnv (C13.start Demo.plainEnv Demo.cfg 0)
  [.timeout 0, .poll 100, .poll 100, .timeout 1]).2

example : openItems waiting.eng.saved ≠ [] ∧
    (waiting.eng.timers.handle waiting.eng.cfg.handshakeTimeout 3000000000
      (Demo.plainEnv.jitter waiting.eng.tick)).2 = .resend ∧
    (match (handleTimeout Demo.plainEnv.toEnv 3000000000 waiting.eng).1 with | .ok _ => true | _ => false) = true := by
  decide +kernel

/-- An acknowledged record is not sent again. -/
example : openItems [⟨22, 2, 5, [1], true⟩, ⟨22, 2, 6, [2], false⟩] = [(22, 2, 6, [2])] := rfl

end Verif.Props.Send13

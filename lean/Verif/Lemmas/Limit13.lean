import Verif.Lemmas.Rotate13
import Verif.Props.Seq13
import Verif.Lemmas.Later13
/-!
# Automatic KeyUpdates of a DTLS 1.3 session
-/
namespace Verif.E13
open Verif Wire Window Timer Aead M
open Verif.E12 (Call)

/-- What is known of an automatic KeyUpdate from what was logged before it, its own record included. -/
def AutoOk (limit : Nat) : Ev → List Ev → Prop
  | .keyUpdate ep true, l => pend l = false ∧ 3 * limit + 4 ≤ 4 * l.countP (Ev.inEpoch ep)
  | _, _ => True

def AllAuto (limit : Nat) : List Ev → Prop
  | [] => True
  | e :: l => AutoOk limit e l ∧ AllAuto limit l

theorem inEpoch_filter (a : Nat) (l : List Ev) : (l.filter Ev.isTx).countP (Ev.inEpoch a) = l.countP (Ev.inEpoch a) := by
  rw [List.countP_filter]
  congr 1
  funext e
  cases e <;> simp [Ev.inEpoch, Ev.isTx]

theorem autoOk_filter (n : Nat) (e : Ev) (l : List Ev) : AutoOk n e (l.filter Ev.isTx) ↔ AutoOk n e l := by
  unfold AutoOk
  split <;> simp [pend_filter, inEpoch_filter]

theorem allAuto_filter (n : Nat) (l : List Ev) : AllAuto n (l.filter Ev.isTx) → AllAuto n l := by
  induction l with
  | nil => exact fun h => h
  | cons e l ih =>
    rw [List.filter_cons]
    split
    · rintro ⟨h1, h2⟩
      exact ⟨(autoOk_filter n e l).mp h1, ih h2⟩
    · rename_i hn
      intro h
      refine ⟨?_, ih h⟩
      cases e <;> first | exact absurd rfl hn | trivial

/-- Threshold, flags and log. -/
structure Lim (limit : Nat) (q : TxPart) : Prop where
  cfg : q.cfg.aeadLimit = limit
  lo : 3 * limit ≤ 4 * q.threshold
  hi : q.threshold ≤ limit
  need : q.needsKu = true → q.threshold ≤ q.sendCount
  flag : q.kuInFlight = pend q.log
  auto : AllAuto limit q.log

theorem Lim.other {n : Nat} {q q' : TxPart} {e : Ev} (h : Lim n q) (h1 : q'.cfg = q.cfg) (h2 : q'.threshold = q.threshold)
    (h3 : q'.needsKu = q.needsKu) (h4 : q'.sendCount = q.sendCount) (h5 : q'.kuInFlight = q.kuInFlight)
    (h6 : q'.log = e :: q.log) (hp : ∀ l, pend (e :: l) = pend l) (ha : ∀ l, AutoOk n e l) : Lim n q' :=
  ⟨h1 ▸ h.cfg, h2 ▸ h.lo, h2 ▸ h.hi, by rw [h2, h3, h4]; exact h.need, by rw [h5, h6, hp]; exact h.flag,
    by rw [h6]; exact ⟨ha _, h.auto⟩⟩

theorem Lim.same {n : Nat} {q q' : TxPart} (h : Lim n q) (h1 : q'.cfg = q.cfg) (h2 : q'.threshold = q.threshold)
    (h3 : q'.needsKu = q.needsKu) (h4 : q'.sendCount = q.sendCount) (h5 : q'.kuInFlight = q.kuInFlight)
    (h6 : q'.log = q.log) : Lim n q' :=
  ⟨h1 ▸ h.cfg, h2 ▸ h.lo, h2 ▸ h.hi, by rw [h2, h3, h4]; exact h.need, by rw [h5, h6]; exact h.flag,
    by rw [h6]; exact h.auto⟩

/-- Counting a record, as far as the threshold goes. -/
theorem countSent_due (s : Eng) (sl : Slot) (ep : Nat) (h : s.needsKu = true → s.threshold ≤ s.sendCount) :
    ∃ a b c d e, (countSent s sl ep).q =
      { s.q with hsSeq := a, prevSeq := b, appSeq := c, sendCount := d, needsKu := e } ∧
      (e = true → s.threshold ≤ d) := by
  unfold countSent
  split
  · exact ⟨_, _, _, _, _, rfl, h⟩
  · exact ⟨_, _, _, _, _, rfl, h⟩
  · split
    · refine ⟨_, _, _, _, _, rfl, ?_⟩
      dsimp only
      split
      · intro _; omega
      · intro hn; have := h hn; omega
    · exact ⟨_, _, _, _, _, rfl, h⟩

theorem lim_hs (env : Env) (n : Nat) : TxHs env (Lim n) (fun _ _ _ _ _ => True) where
  plain s c f h g _ _ := by
    rw [emitPlain_q]
    exact h.other (e := .queued none c 0 s.seq0 f) rfl rfl rfl rfl rfl rfl (fun _ => rfl) (fun _ => trivial)
  sealed s k ep h := by
    rw [sealedSt_q]
    exact h.other (e := .sealed _ _ _ _) rfl rfl rfl rfl rfl rfl (fun _ => rfl) (fun _ => trivial)
  cipher s c ep f suite tag k ct h g hep hs hr hm := by
    have h' : Lim n (sealedSt s k ep).q := by
      rw [sealedSt_q]
      exact h.other (e := .sealed _ _ _ _) rfl rfl rfl rfl rfl rfl (fun _ => rfl) (fun _ => trivial)
    rw [emitCipher_q]
    obtain ⟨a1, a2, a3, a4, a5, hq, hd⟩ := countSent_due (sealedSt s k ep) (s.slot ep) ep h'.need
    rw [hq]
    exact ⟨h'.cfg, h'.lo, h'.hi, hd, h'.flag, ⟨trivial, h'.auto⟩⟩
  sealDg s h := h.same rfl rfl rfl rfl rfl rfl
  lost s h := h.same rfl rfl rfl rfl rfl rfl
  rotate s cur new suite secret h _ _ _ _ _ _ := by
    rw [rotateSend_q]
    have hc : s.cfg.aeadLimit = n := h.cfg
    have ht := Props.Seq13.threshold_range s.cfg.aeadLimit (env.randNat s.tick)
    rw [hc] at ht
    exact ⟨hc, by dsimp only; rw [hc]; exact ht.2, by dsimp only; rw [hc]; exact ht.1, nofun, rfl, ⟨trivial, h.auto⟩⟩
  ackRec s ep f _ _ _ := trivial
  asked s h := ⟨h.cfg, h.lo, h.hi, nofun, h.flag, h.auto⟩
  abort s h := h.same rfl rfl rfl rfl rfl rfl
  hs s ep f tag _ _ _ := trivial
  kuRec s n r _ := trivial

/-- The invariant by phase. -/
def LimAt (n p : Nat) (e : Eng) : Prop := TxOk (NumAt p) NumG e ∧ TxOk (Lim n) (fun _ _ _ _ _ => True) e

/-- What holds throughout. -/
structure LimFin (n : Nat) (e : Eng) : Prop where
  lim : Lim n e.q
  count : e.sendCount = e.log.countP (Ev.inEpoch e.appEpoch)
  app : 3 ≤ e.appEpoch
  prev : e.prevSend = none
  recv : e.received.length ≤ 32

theorem LimAt.fin {n p : Nat} {e : Eng} (h : LimAt n p e) : LimFin n e :=
  ⟨h.2.q, by rw [← inEpoch_filter]; exact h.1.q.count, h.1.q.app, h.1.q.prev, h.1.r⟩

theorem limAt_app (env : Env) (n : Nat) : AppFrame env (fun _ => True) (Keeps (LimAt n 3)) where
  data e d _ h := ⟨(numAt_inv env 3).app.data e d trivial h.1,
    createCipher_tx (lim_hs env n).toTxCore h.2 _ _ _ _ trivial (.inr rfl)⟩
  asked e h := ⟨(numAt_inv env 3).app.asked e h.1, (lim_hs env n).asked e h.2.q, h.2.g, h.2.r⟩
  keyUpdate e h := ⟨(numAt_inv env 3).app.keyUpdate e h.1, createKeyUpdate_tx (lim_hs env n) h.2 _
    fun t g _ _ _ => ⟨g.cfg, g.lo, g.hi, g.need, rfl, ⟨trivial, g.auto⟩⟩⟩
  auto e h1 h2 h := by
    refine ⟨(numAt_inv env 3).app.auto e h1 h2 h.1, ?_⟩
    refine createKeyUpdate_tx (s := { e with needsKu := false }) (lim_hs env n)
      ⟨(lim_hs env n).asked e h.2.q, h.2.g, h.2.r⟩ _ ?_
    rintro t g e1 e2 ⟨k, m, f, a, b, c, d, hl⟩
    have h3 : e.threshold ≤ e.sendCount := h.2.q.need h1
    have h4 : e.sendCount = e.q.log.countP (Ev.inEpoch e.appEpoch) := h.1.q.count
    have h5 : 3 * n ≤ 4 * e.threshold := h.2.q.lo
    have e1 : t.appEpoch = e.appEpoch := e1
    have e2 : t.kuInFlight = e.kuInFlight := e2
    have hf : t.kuInFlight = pend t.q.log := g.flag
    refine ⟨g.cfg, g.lo, g.hi, g.need, rfl, ⟨⟨?_, ?_⟩, g.auto⟩⟩
    · show pend t.q.log = false
      rw [← hf, e2, h2]
    · show _ ≤ 4 * t.q.log.countP _
      rw [e1, hl, count_push, List.countP_cons]
      have h6 : ({ e with needsKu := false } : Eng).q.log = e.q.log := rfl
      rw [h6, ← h4]
      simp
      omega
  newRecv e h := ⟨(numAt_inv env 3).app.newRecv e h.1, updateRecvKeys_tx h.2⟩
  ack e h := ⟨(numAt_inv env 3).app.ack e h.1, sendAck_tx (lim_hs env n).toTxCore h.2⟩

theorem lim_keys (env : Env) (n : Nat) : KeyFrame env (Keeps (TxOk (Lim n) (fun _ _ _ _ _ => True))) :=
  keyFrame_of (lim_hs env n) (fun _ _ h => h.same rfl rfl rfl rfl rfl rfl) (fun _ h => h.same rfl rfl rfl rfl rfl rfl)
    (fun _ _ h => h.same rfl rfl rfl rfl rfl rfl) (fun _ h => h.same rfl rfl rfl rfl rfl rfl) (fun _ _ _ _ _ _ _ => trivial)

theorem limAt_phases (env : Env) (n : Nat) : Phases env (LimAt n) (fun _ e => LimFin n e) where
  frame p hp := ((numAt_inv env p).frame (fun _ _ h => h.same rfl rfl rfl rfl rfl rfl rfl rfl rfl)).and
    ((lim_hs env n).frame fun _ _ h => h.same rfl rfl rfl rfl rfl rfl)
  api p hp := by
    have h := (numAt_inv env p).api
    have g := (lim_hs env n).api fun _ _ => trivial
    exact
    { packet := fun e x y => ⟨h.packet e x y.1, g.packet e x y.2⟩
      timeout := fun e x y => ⟨h.timeout e x y.1, g.timeout e x y.2⟩
      alert := fun e y => ⟨h.alert e y.1, g.alert e y.2⟩
      cancel := fun e y => ⟨h.cancel e y.1, g.cancel e y.2⟩
      abort := fun e y => ⟨h.abort e y.1, g.abort e y.2⟩ }
  poll p hp e b m h := ⟨(numAt_phases env).poll p hp e b m h.1, pollOutput_tx (fun s p rest h _ =>
    h.other (e := .sent p) rfl rfl rfl rfl rfl rfl (fun _ => rfl) (fun _ => trivial)) h.2 b m⟩
  app := limAt_app env n
  retry e h := ⟨(numAt_phases env).retry e h.1, (lim_keys env n).retry e h.2⟩
  weak _ _ _ h := h.fin

theorem limAt_hs {env : Env} {n : Nat} (e : Eng) (a b : Bytes) (h : LimAt n 0 e) :
    wp (installHandshakeKeys env a b) e (fun _ e => LimAt n 1 e) (fun _ e => LimFin n e) := by
  refine wp_mono (wp_and (wp_and (numAt_hs e a b h.1) (to_wp ((lim_keys env n).hsKeys e a b h.2)))
    (wp_installHandshakeKeys (s := e) (a := a) (b := b) (Q := fun _ _ => True)
      (F := fun _ e' => e'.sendCount = e'.log.countP (Ev.inEpoch e'.appEpoch) ∧ 3 ≤ e'.appEpoch ∧ e'.prevSend = none)
      (fun _ _ _ _ _ _ => trivial) (fun _ _ => ⟨h.fin.count, h.fin.app, h.fin.prev⟩)
      (fun _ _ _ => ⟨h.fin.count, h.fin.app, h.fin.prev⟩))) ?_ ?_
  · exact fun _ _ x => x.1
  · exact fun _ _ x => ⟨x.1.2.q, x.2.1, x.2.2.1, x.2.2.2, x.1.2.r⟩

theorem limAt_appKeys {env : Env} {n : Nat} (e : Eng) (a b : Bytes) (h : LimAt n 1 e) :
    wp (installApplicationKeys env a b) e (fun _ e => LimAt n 2 e) (fun _ e => LimFin n e) := by
  refine wp_mono (wp_and (wp_and (numAt_appKeys e a b h.1) (to_wp ((lim_keys env n).appKeys e a b h.2)))
    (wp_installApplicationKeys (s := e) (a := a) (b := b) (Q := fun _ _ => True)
      (F := fun _ e' => e'.sendCount = e'.log.countP (Ev.inEpoch e'.appEpoch) ∧ 3 ≤ e'.appEpoch ∧ e'.prevSend = none)
      (fun _ _ _ _ _ _ _ => trivial) (fun _ _ => ⟨h.fin.count, h.fin.app, h.fin.prev⟩)
      (fun _ _ _ => ⟨h.fin.count, h.fin.app, h.fin.prev⟩))) ?_ ?_
  · exact fun _ _ x => x.1
  · exact fun _ _ x => ⟨x.1.2.q, x.2.1, x.2.2.1, x.2.2.2, x.1.2.r⟩

theorem limAt_enable {env : Env} {n p : Nat} (e : Eng) (h : LimAt n p e) :
    wp (enablePeerEncryption env) e (fun _ e => LimAt n p e) (fun _ e => LimFin n e) := by
  have h1 := enablePeerEncryption_tx (numAt_inv env p).toTxCore h.1
  have h2 := (lim_keys env n).enablePeer e h.2
  exact wp_mono (to_wp (R := LimAt n p) ⟨h1, h2⟩) (fun _ _ x => x) (fun _ _ x => x.fin)

theorem limAt_client (env : Env) (n : Nat) : CCare env (LimAt n) (fun _ e => LimFin n e) (LimAt n 1) where
  toPhases := limAt_phases env n
  hs := limAt_hs
  enable := limAt_enable
  weak1 _ h := h.fin
  appKeys := limAt_appKeys
  release e h := ⟨⟨h.1.q.up (by decide), h.1.g, h.1.r⟩, (lim_keys env n).release e h.2⟩

theorem limAt_server (env : Env) (n : Nat) : SCare env (LimAt n) (fun _ e => LimFin n e) (LimAt n 2) where
  toPhases := limAt_phases env n
  hs := limAt_hs
  enable := limAt_enable
  appKeys := limAt_appKeys
  release e h := ⟨⟨h.1.q.up (by decide), h.1.g, h.1.r⟩, (lim_keys env n).retain e h.2⟩

variable {env : PEnv} {cfg : Cfg} {R : Role} {s0 : Ses R.St}

theorem Start.limAt0 (h : Start env cfg R s0) : LimAt cfg.aeadLimit 0 s0.eng := by
  refine ⟨h.numAt0, ?_⟩
  obtain ⟨n, _, hq⟩ := h.q0
  obtain ⟨g1, g2, _, _⟩ := h.saved0
  have ht := Props.Seq13.threshold_range cfg.aeadLimit (env.randNat 1)
  refine ⟨?_, ?_, ?_⟩
  · rw [hq]
    exact ⟨rfl, ht.2, ht.1, nofun, rfl, trivial⟩
  · rw [g1]; exact fun _ he => nomatch he
  · rw [g2]; simp

/-- The threshold and the KeyUpdates sent, throughout. -/
theorem Start.lim (h : Start env cfg R s0) (cs : List Call) (ha : Careful R env s0 cs) :
    LimFin cfg.aeadLimit (run R env s0 cs).2.eng :=
  h.care (limAt_client env.toEnv _) (limAt_server env.toEnv _) (fun _ _ _ h => h) (fun _ _ _ h => h)
    (fun _ _ h => h.fin) (fun _ _ h => h.fin) h.limAt0 h.limAt0 cs ha


/-! ## No call is cut short by a passing error -/

/-- Errors of `m` are not passed over in silence. -/
def Lasting {σ α : Type} (m : M σ α) : Prop := ∀ s, (m s).1 ≠ .fail .transient

section
variable {σ α β : Type}
theorem Lasting.pure (a : α) : Lasting (M.pure a : M σ α) := nofun
theorem Lasting.modify (f : σ → σ) : Lasting (M.modify f) := nofun
theorem Lasting.bind {m : M σ α} {f : α → M σ β} (h : Lasting m) (g : ∀ a, Lasting (f a)) : Lasting (M.bind m f) := by
  intro s
  have := h s
  unfold M.bind M.andThen
  revert this
  generalize m s = r
  obtain ⟨r, s'⟩ := r
  intro this
  cases r with
  | ok a => exact g a s'
  | fail f => intro e; exact this (by injection e with e; exact congrArg _ e)
end

section
variable (env : Env)
theorem createPlain_lasting (c sv f) : Lasting (createPlain c sv f) := by
  intro s
  unfold createPlain
  split
  · nofun
  · dsimp only
    split
    · nofun
    · split <;> nofun

theorem createCipher_lasting (c ep sv f) : Lasting (createCipher env c ep sv f) := by
  intro s
  unfold createCipher
  split
  · nofun
  · unfold sealCipher
    split
    · split
      · nofun
      · dsimp only
        split
        · nofun
        · unfold queueCipher
          dsimp only
          split
          · nofun
          · split <;> nofun
    · nofun

theorem resendEntry_lasting (x) : Lasting (resendEntry env x) := by
  intro s
  unfold resendEntry
  split
  · exact Lasting.bind (createPlain_lasting _ _ _) (fun _ => .pure _) s
  · exact Lasting.bind (createCipher_lasting env _ _ _ _) (fun _ => .pure _) s

theorem resendLoop_lasting (l) : Lasting (resendLoop env l) := by
  induction l with
  | nil => exact .pure _
  | cons x l ih =>
    unfold resendLoop
    split
    · exact .bind ih fun _ => .pure _
    · exact .bind (resendEntry_lasting env x) fun _ => .bind ih fun _ => .pure _

theorem flightResend_lasting : Lasting (flightResend env) := by
  intro s
  unfold flightResend
  exact Lasting.bind (resendLoop_lasting env _) (fun _ => .modify _) _

theorem ackDuty_lasting (n) : Lasting (ackDuty env n) := by
  intro s
  unfold ackDuty flushAck
  split
  · nofun
  · split
    · nofun
    · dsimp only
      split
      · nofun
      · split
        · nofun
        · exact createCipher_lasting env _ _ _ _ _

theorem handleTimeout_lasting (n) : Lasting (handleTimeout env n) := by
  intro s
  unfold handleTimeout
  generalize s.timers.handle s.cfg.handshakeTimeout n (env.jitter s.tick) = x
  obtain ⟨t, f⟩ := x
  dsimp only
  cases f with
  | connectTimeout => nofun
  | handshakeTimeout => nofun
  | idle => nofun
  | waiting => exact ackDuty_lasting env n _
  | resend => exact Lasting.bind (flightResend_lasting env) (fun _ => ackDuty_lasting env n) _
end
section

/-! ## What is due gets done -/

/-- The keys are used up and no KeyUpdate is in flight. -/
def Due (n : Nat) (q : TxPart) : Prop := q.needsKu = true ∧ q.kuInFlight = false ∧ q.appEpoch = n

theorem countSent_needs (s : Eng) (sl : Slot) (ep : Nat) (h : s.needsKu = true) :
    ∃ a b c d, (countSent s sl ep).q = { s.q with hsSeq := a, prevSeq := b, appSeq := c, sendCount := d } := by
  unfold countSent
  split
  · exact ⟨_, _, _, _, rfl⟩
  · exact ⟨_, _, _, _, rfl⟩
  · split
    · refine ⟨s.hsSeq, s.prevSeq, s.appSeq + 1, s.sendCount + 1, ?_⟩
      simp [Eng.q, h]
    · exact ⟨_, _, _, _, rfl⟩

theorem due_core (env : Env) (n : Nat) : TxCore env (Due n) (fun _ _ _ _ _ => True) where
  plain s c f h _ _ _ := by rw [emitPlain_q]; exact h
  sealed s k ep h := by rw [sealedSt_q]; exact h
  cipher s c ep f suite tag k ct h _ _ _ _ _ := by
    have h' : Due n (sealedSt s k ep).q := by rw [sealedSt_q]; exact h
    rw [emitCipher_q]
    obtain ⟨_, _, _, _, hq⟩ := countSent_needs (sealedSt s k ep) (s.slot ep) ep h'.1
    rw [hq]
    exact h'
  sealDg _ h := h
  lost _ h := h
  rotate s _ _ _ _ h _ hk _ _ _ _ := by
    have : s.kuInFlight = false := h.2.1
    rw [this] at hk
    cases hk
  ackRec _ _ _ _ _ _ := trivial

/-- The invariant as it is kept. -/
abbrev DueE (n : Nat) (e : Eng) : Prop := TxOk (Due n) (fun _ _ _ _ _ => True) e

/-- A record that uses up the keys makes a KeyUpdate due. -/
theorem createCipher_due (env : Env) (c : UInt8) (f : Bytes) (s : Eng) (hp : s.prevSend = none) (ha : 3 ≤ s.appEpoch)
    (hok : (createCipher env c s.appEpoch false f s).1 = .ok ()) :
    (createCipher env c s.appEpoch false f s).2.sendCount = s.sendCount + 1 ∧
    (s.threshold ≤ s.sendCount + 1 → (createCipher env c s.appEpoch false f s).2.needsKu = true) := by
  revert hok
  refine createCipher_ind (motive := fun r => r.1 = .ok () → r.2.sendCount = s.sendCount + 1 ∧
    (s.threshold ≤ s.sendCount + 1 → r.2.needsKu = true)) env c s.appEpoch false f s
    (fun _ _ h => nomatch h) (fun _ _ _ h => nomatch h) (fun _ _ _ _ _ _ _ _ h => nomatch h) ?_
  intro suite tag k ct _ _ _ _ _
  have hs : s.slot s.appEpoch = .app := by
    unfold Eng.slot
    rw [hp, if_neg (by omega)]
    rfl
  rw [hs]
  have hq := emitCipher_q env (sealedSt (savedAs s false (entryOf s c s.appEpoch f)) k s.appEpoch) suite .app k c
    s.appEpoch (canAppend s (5 + ct.length)) f ct
  generalize emitCipher env (sealedSt (savedAs s false (entryOf s c s.appEpoch f)) k s.appEpoch) suite .app k c
    s.appEpoch (canAppend s (5 + ct.length)) f ct = r at hq ⊢
  have e1 : r.sendCount = (countSent (sealedSt (savedAs s false (entryOf s c s.appEpoch f)) k s.appEpoch) .app s.appEpoch).sendCount :=
    congrArg TxPart.sendCount hq
  have e2 : r.needsKu = (countSent (sealedSt (savedAs s false (entryOf s c s.appEpoch f)) k s.appEpoch) .app s.appEpoch).needsKu :=
    congrArg TxPart.needsKu hq
  dsimp only
  rw [e1, e2]
  unfold countSent
  dsimp only
  rw [if_pos ha]
  refine ⟨rfl, fun ht => ?_⟩
  show (if s.sendCount + 1 ≥ s.threshold then true else _) = true
  rw [if_pos ht]

/-- A KeyUpdate was sent since. -/
def Updated (n : Nat) (old : List Ev) (e : Eng) : Prop := ∃ l, e.log = l ++ old ∧ .keyUpdate n true ∈ l

theorem Updated.grow {n : Nat} {old : List Ev} {e e' : Eng} (h : Updated n old e) (g : Grow e e') : Updated n old e' := by
  obtain ⟨l, h1, h2⟩ := h
  obtain ⟨m, h3⟩ := g.log
  exact ⟨m ++ l, by rw [h3, h1, List.append_assoc], List.mem_append_right _ h2⟩

theorem createKeyUpdate_sent (env : Env) (old : List Ev) (s : Eng) (h : ∃ l, s.log = l ++ old) :
    wp (createKeyUpdate env true) s (fun _ e => Updated s.appEpoch old e) (fun f _ => f ≠ .transient) := by
  obtain ⟨l, h⟩ := h
  unfold createKeyUpdate
  rw [wp_bind, wp_modify, wp_bind, wp_get]
  split
  · show Fault.panic ≠ _; nofun
  · rw [wp_bind, wp_modify, wp_bind]
    refine wp_of ?_ ?_
    · intro _ t ht
      rw [wp_modify]
      obtain ⟨m, hm⟩ := (createCipher_grow env ctHandshake (flightBegin env s).appEpoch true
        (keyUpdateMsg (flightBegin env s).nextSeq true)
        { flightBegin env s with nextSeq := (flightBegin env s).nextSeq + 1 }).log
      rw [ht] at hm
      have hm : t.log = m ++ s.log := hm
      exact ⟨.keyUpdate s.appEpoch true :: m ++ l, by simp [hm, h, flightBegin], List.mem_cons_self⟩
    · intro f t ht hf
      have := createCipher_lasting env ctHandshake (flightBegin env s).appEpoch true
        (keyUpdateMsg (flightBegin env s).nextSeq true)
        { flightBegin env s with nextSeq := (flightBegin env s).nextSeq + 1 }
      rw [ht, hf] at this
      exact this rfl

/-- The state that is connected sends the KeyUpdate that is due. -/
theorem app_due {St : Type} {env : PEnv} (self : St) (n : Nat) (old : List Ev) (s : Ses St)
    (h : DueE n s.eng) (hl : ∃ l, s.eng.log = l ++ old) :
    wp (awaitApplicationData env self) s (fun new s' => new = self ∧ Updated n old s'.eng)
      (fun f s' => f ≠ .transient ∨ Updated n old s'.eng) := by
  unfold awaitApplicationData
  simp only [bind_eq, pure_eq]
  obtain ⟨h1, h2, h3⟩ := h.q
  have h1 : s.eng.needsKu = true := h1
  have h2 : s.eng.kuInFlight = false := h2
  have h3 : s.eng.appEpoch = n := h3
  have auto : wp (autoKeyUpdate env : P St Unit) s (fun _ s' => Updated n old s'.eng) (fun f _ => f ≠ .transient) := by
    unfold autoKeyUpdate
    simp only [bind_eq, pure_eq]
    rw [wp_bind, wp_get, if_pos h1, wp_bind, wp_onEng', if_neg (by rw [h2]; nofun), wp_onEng]
    have := createKeyUpdate_sent env.toEnv old { s.eng with needsKu := false } hl
    rw [show ({ s.eng with needsKu := false } : Eng).appEpoch = n from h3] at this
    exact this
  rw [wp_bind]
  refine wp_mono auto ?_ (fun _ _ h => .inl h)
  intro _ s1 g
  have tail : SFr Later (M.bind (drainQueued env) fun _ => M.bind (respondKeyUpdate env) fun _ =>
      M.bind (takeKeyUpdate env) fun _ => M.pure self : P St St) := by
    have hf := (Later.rel (St := St)).toSRel
    have h := drainQueued_later (St := St) (env := env)
    unfold respondKeyUpdate takeKeyUpdate
    simp only [bind_eq, pure_eq]
    sfr hf
  have gives : Gives (fun new => new = self) (M.bind (drainQueued env) fun _ => M.bind (respondKeyUpdate env) fun _ =>
      M.bind (takeKeyUpdate env) fun _ => M.pure self : P St St) :=
    .bind fun _ => .bind fun _ => .bind fun _ => .pure rfl
  have hs := g.grow (tail s1).1.grow
  refine wp_of ?_ ?_
  · intro a s' ha
    rw [ha] at hs
    exact ⟨gives s1 a (by rw [ha]), hs⟩
  · intro f s' ha
    rw [ha] at hs
    exact .inr hs

theorem progress_due {keying : R.St → Bool} (ho : RoleOk R env keying) (n m : Nat) (old : List Ev) (s : Ses R.St)
    (hst : s.st = R.app) (h : DueE n s.eng) (hl : ∃ l, s.eng.log = l ++ old) :
    wp (progress R env m) s (fun _ s' => Updated n old s'.eng) (fun f s' => f ≠ .transient ∨ Updated n old s'.eng) := by
  cases m with
  | zero => exact .inl nofun
  | succ m =>
    unfold progress
    simp only [bind_eq, pure_eq]
    rw [wp_bind, wp_get, wp_bind, hst, ho.app]
    refine wp_mono (app_due R.app n old s h hl) ?_ (fun _ _ h => h)
    rintro new s' ⟨rfl, g⟩
    rw [if_pos rfl]
    exact g

theorem timeout_due {keying : R.St → Bool} (ho : RoleOk R env keying) (n : Nat) (s : Ses R.St) (t : Nat)
    (hst : s.st = R.app) (h : DueE n s.eng) (hok : (call R env s (.timeout t)).1 = .res .ok) :
    Updated n s.eng.log (call R env s (.timeout t)).2.eng := by
  have h0 : (noteTime R env t s).st = R.app ∧ DueE n (noteTime R env t s).eng ∧
      (noteTime R env t s).eng.log = s.eng.log := by
    unfold noteTime
    split
    · exact ⟨hst, h, rfl⟩
    · exact ⟨hst, h.rx rfl rfl rfl, rfl⟩
  have hw : wp (handleTimeoutM R env t) s (fun _ s' => Updated n s.eng.log s'.eng)
      (fun f s' => f ≠ .transient ∨ Updated n s.eng.log s'.eng) := by
    unfold handleTimeoutM
    simp only [bind_eq]
    rw [wp_bind, wp_modify, wp_bind, wp_onEng]
    refine wp_of ?_ ?_
    · intro _ e he
      have h1 := handleTimeout_tx (due_core env.toEnv n) h0.2.1 t
      have h2 := (handleTimeout_grow env.toEnv t (noteTime R env t s).eng).log
      rw [he] at h1 h2
      obtain ⟨l, h2⟩ := h2
      exact progress_due ho n _ _ _ h0.1 h1 ⟨l, by rw [h2, h0.2.2]⟩
    · intro f e he
      refine .inl fun hf => ?_
      have := handleTimeout_lasting env.toEnv t (noteTime R env t s).eng
      rw [he, hf] at this
      exact this rfl
  revert hok
  unfold call
  unfold wp at hw
  dsimp only
  split at hw
  · rename_i he
    rw [he]
    exact fun _ => hw
  · rename_i f s' he
    rw [he]
    intro hok
    rcases hw with hw | hw
    · exfalso
      revert hok
      cases f <;> simp_all [E12.toApi]
    · exact hw

theorem packet_due {keying : R.St → Bool} (ho : RoleOk R env keying) (n : Nat) (s : Ses R.St) (p : Bytes)
    (hst : s.st = R.app) (h : DueE n s.eng) (hok : (handlePacketM R env p s).1 = .ok ()) :
    Updated n s.eng.log (call R env s (.packet p)).2.eng := by
  have hw : wp (handlePacketM R env p) s (fun _ s' => Updated n s.eng.log s'.eng) (fun _ _ => True) := by
    have tail : ∀ s1 : Ses R.St, s1.st = s.st → s1.eng = s.eng →
        wp (M.bind (onEng (parsePacket env.toEnv p)) fun _ => M.bind (progress R env progressFuel) fun _ =>
          M.modify fun s => if (s.autoMode && !R.first s.st) = true then { s with retained := [], autoMode := false } else s)
          s1 (fun _ s' => Updated n s.eng.log s'.eng) (fun _ _ => True) := by
      intro s1 e1 e2
      rw [wp_bind, wp_onEng, e2]
      refine wp_of ?_ (fun _ _ _ => trivial)
      intro _ e he
      have h1 := parsePacket_tx (due_core env.toEnv n) h p
      have h2 := (parsePacket_grow env.toEnv p s.eng).log
      rw [he] at h1 h2
      obtain ⟨l, h2⟩ := h2
      rw [wp_bind]
      refine wp_mono (progress_due ho n _ s.eng.log _ (e1.trans hst) h1 ⟨l, h2⟩) ?_ (fun _ _ _ => trivial)
      intro _ s2 g
      rw [wp_modify]
      split <;> exact g
    unfold handlePacketM
    simp only [bind_eq]
    rw [wp_bind, wp_get]
    split
    · split
      · trivial
      · rw [wp_bind, wp_modify]
        exact tail _ rfl rfl
    · exact tail _ rfl rfl
  unfold call
  unfold wp at hw
  dsimp only
  split at hw
  · rename_i he; rw [he]; exact hw
  · rename_i he; rw [he] at hok; cases hok

end
end Verif.E13

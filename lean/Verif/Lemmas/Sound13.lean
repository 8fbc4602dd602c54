import Verif.Lemmas.Safe13
import Verif.Lemmas.Careful13
import Verif.Lemmas.Order13
/-!
# Where a DTLS 1.3 engine does not panic during the handshake
-/
namespace Verif.E13
open Verif Wire Window Timer Aead M
open Verif.E12 (Call SearchOk Bad bad_fail)

section
variable {env : Env} {α β : Type}

/-- Suites are known; records of later epochs are saved, and the peer's encryption is on, only with a suite; no
KeyUpdate is out. -/
structure Steady (env : Env) (e : Eng) : Prop where
  tagged : ∀ cs, e.suite = some cs → ∃ t, env.suiteTag cs = some t
  saved : (∀ x ∈ e.saved, x.epoch = 0) ∨ e.suite ≠ none
  enc : e.peerEnc = true → e.suite ≠ none
  ku : e.kuInFlight = false
  keys : e.hsSend ≠ none → e.suite ≠ none

/-- What the datagrams and timeouts of the handshake leave as it was. -/
structure Sim (e e' : Eng) : Prop where
  suite : e'.suite = e.suite
  enc : e'.peerEnc = e.peerEnc
  next : e'.nextSeq = e.nextSeq
  peer : e'.peerSeq = e.peerSeq
  ku : e'.kuInFlight = e.kuInFlight
  hs : e'.hsSend = e.hsSend
  recv : e'.appRecv.map (·.epoch) = e.appRecv.map (·.epoch)
  saved : e'.saved = [] ∨ e'.saved.map (·.epoch) = e.saved.map (·.epoch)

theorem Sim.refl (e : Eng) : Sim e e := ⟨rfl, rfl, rfl, rfl, rfl, rfl, rfl, .inr rfl⟩

theorem Sim.trans {a b c : Eng} (h : Sim a b) (g : Sim b c) : Sim a c := by
  refine ⟨g.suite.trans h.suite, g.enc.trans h.enc, g.next.trans h.next, g.peer.trans h.peer, g.ku.trans h.ku,
    g.hs.trans h.hs, g.recv.trans h.recv, ?_⟩
  rcases g.saved with g1 | g1
  · exact .inl g1
  · rcases h.saved with h1 | h1
    · left
      rw [h1] at g1
      exact List.map_eq_nil_iff.mp g1
    · exact .inr (g1.trans h1)

theorem epochs_of {l l' : List Entry} (h : l'.map (·.epoch) = l.map (·.epoch)) (h0 : ∀ x ∈ l, x.epoch = 0) :
    ∀ x ∈ l', x.epoch = 0 := by
  intro x hx
  have : x.epoch ∈ l.map (·.epoch) := h ▸ List.mem_map_of_mem hx
  obtain ⟨y, hy, he⟩ := List.mem_map.mp this
  rw [← he]
  exact h0 y hy

theorem Steady.sim {e e' : Eng} (h : Steady env e) (g : Sim e e') : Steady env e' := by
  refine ⟨fun cs hc => h.tagged cs (by rw [← g.suite]; exact hc), ?_, fun he => by rw [g.suite]; exact h.enc (by rw [← g.enc]; exact he),
    g.ku.trans h.ku, fun hk => by rw [g.suite]; exact h.keys (by rw [← g.hs]; exact hk)⟩
  rw [g.suite]
  rcases h.saved with h1 | h1
  · left
    rcases g.saved with g1 | g1
    · rw [g1]; nofun
    · exact epochs_of g1 h1
  · exact .inr h1

/-- `m` does not panic at a sound engine and leaves it similar. -/
def Mild (env : Env) (m : E α) : Prop := ∀ e, Steady env e → ¬ Bad (m e).1 ∧ Sim e (m e).2

theorem Mild.pure (a : α) : Mild env (M.pure a : E α) := fun e _ => ⟨id, .refl e⟩
theorem Mild.transient : Mild env (M.transient : E α) := fun e _ => ⟨id, .refl e⟩

theorem Mild.bind {m : E α} {f : α → E β} (h : Mild env m) (g : ∀ a, Mild env (f a)) : Mild env (M.bind m f) := by
  intro e he
  obtain ⟨h1, h2⟩ := h e he
  unfold M.bind
  cases hm : m e with
  | mk o e' =>
    rw [hm] at h1 h2
    cases o with
    | ok a =>
      obtain ⟨g1, g2⟩ := g a e' (he.sim h2)
      exact ⟨g1, h2.trans g2⟩
    | fail x =>
      refine ⟨?_, h2⟩
      show ¬ Bad (.fail x : Res β)
      rw [bad_fail] at h1 ⊢
      exact h1

theorem Steady.known {e : Eng} (h : Steady env e) (hs : e.suite ≠ none) : ∃ cs t, e.suite = some cs ∧ e.tag env = some t := by
  cases hx : e.suite with
  | none => exact absurd hx hs
  | some cs =>
    obtain ⟨t, ht⟩ := h.tagged cs hx
    exact ⟨cs, t, rfl, known_tag hx ht⟩

/-! ## Records -/

theorem pushWire_sim (e : Eng) (a b) : Sim e (pushWire e a b) := by
  unfold pushWire
  split <;> exact ⟨rfl, rfl, rfl, rfl, rfl, rfl, rfl, .inr rfl⟩

theorem countSent_sim (e : Eng) (sl ep) : Sim e (countSent e sl ep) := by
  unfold countSent
  cases sl
  · exact ⟨rfl, rfl, rfl, rfl, rfl, rfl, rfl, .inr rfl⟩
  · exact ⟨rfl, rfl, rfl, rfl, rfl, rfl, rfl, .inr rfl⟩
  · simp only
    split <;> exact ⟨rfl, rfl, rfl, rfl, rfl, rfl, rfl, .inr rfl⟩

/-- A copy with another log. -/
theorem Sim.log {e e' : Eng} (h : Sim e e') (l) : Sim e { e' with log := l } :=
  ⟨h.suite, h.enc, h.next, h.peer, h.ku, h.hs, h.recv, h.saved⟩

theorem queueCipher_sim (suite sl k c ep f ct) (e : Eng) : ¬ Bad (queueCipher env suite sl k c ep f ct e).1 ∧
    Sim e (queueCipher env suite sl k c ep f ct e).2 := by
  unfold queueCipher
  simp only
  split
  · exact ⟨id, .refl e⟩
  · split
    · exact ⟨id, .refl e⟩
    · exact ⟨id, ((countSent_sim e sl ep).trans (pushWire_sim _ _ _)).log _⟩

theorem sealCipher_sim {e : Eng} (h : Steady env e) (hs : e.suite ≠ none) (c ep f) : ¬ Bad (sealCipher env c ep f e).1 ∧
    Sim e (sealCipher env c ep f e).2 := by
  obtain ⟨cs, t, h1, h2⟩ := h.known hs
  unfold sealCipher
  split
  · split
    · exact ⟨id, .refl e⟩
    · simp only
      split
      · exact ⟨id, .refl e⟩
      · exact ⟨(queueCipher_sim _ _ _ _ _ _ _ _).1,
          (Sim.log (.refl e) _).trans (queueCipher_sim _ _ _ _ _ _ _ _).2⟩
  · rename_i h
    exact (h cs t h1 h2).elim

theorem createPlain_sim (c f) (e : Eng) : ¬ Bad (createPlain c false f e).1 ∧ Sim e (createPlain c false f e).2 := by
  unfold createPlain saveEntry
  simp only [Bool.false_eq_true, if_false]
  split
  · exact ⟨id, .refl e⟩
  · split
    · exact ⟨id, .refl e⟩
    · exact ⟨id, ((pushWire_sim e _ _).trans ⟨rfl, rfl, rfl, rfl, rfl, rfl, rfl, .inr rfl⟩)⟩

theorem resendEntry_sim (x : Entry) {e : Eng} (h : Steady env e) (hx : x.epoch = 0 ∨ e.suite ≠ none) :
    ¬ Bad (resendEntry env x e).1 ∧ Sim e (resendEntry env x e).2 ∧
    ∀ y, (resendEntry env x e).1 = .ok y → y.epoch = x.epoch := by
  unfold resendEntry
  split
  · obtain ⟨p1, p2⟩ := createPlain_sim x.ctype x.fragment e
    unfold M.bind
    cases hm : createPlain x.ctype false x.fragment e with
    | mk o e' =>
      rw [hm] at p1 p2
      cases o with
      | ok a => exact ⟨id, p2, fun y hy => by cases hy; rfl⟩
      | fail f => exact ⟨by show ¬ Bad (.fail f : Res Entry); rw [bad_fail] at p1 ⊢; exact p1, p2, nofun⟩
  · rename_i hne
    obtain ⟨p1, p2⟩ := sealCipher_sim h (hx.resolve_left hne) x.ctype x.epoch x.fragment
    have hc : createCipher env x.ctype x.epoch false x.fragment e = sealCipher env x.ctype x.epoch x.fragment e := rfl
    unfold M.bind
    rw [hc]
    cases hm : sealCipher env x.ctype x.epoch x.fragment e with
    | mk o e' =>
      rw [hm] at p1 p2
      cases o with
      | ok a => exact ⟨id, p2, fun y hy => by cases hy; rfl⟩
      | fail f => exact ⟨by show ¬ Bad (.fail f : Res Entry); rw [bad_fail] at p1 ⊢; exact p1, p2, nofun⟩

theorem resendLoop_sim (l : List Entry) {e : Eng} (h : Steady env e) (hl : (∀ x ∈ l, x.epoch = 0) ∨ e.suite ≠ none) :
    ¬ Bad (resendLoop env l e).1 ∧ Sim e (resendLoop env l e).2 ∧
    ∀ l', (resendLoop env l e).1 = .ok l' → l'.map (·.epoch) = l.map (·.epoch) := by
  induction l generalizing e with
  | nil => exact ⟨id, .refl e, fun l' hl => by cases hl; rfl⟩
  | cons x l ih =>
    have hl' : (∀ y ∈ l, y.epoch = 0) ∨ e.suite ≠ none := hl.imp (fun h y hy => h y (List.mem_cons_of_mem _ hy)) id
    unfold resendLoop
    split
    · obtain ⟨i1, i2, i3⟩ := ih h hl'
      unfold M.bind
      cases hm : resendLoop env l e with
      | mk o e' =>
        rw [hm] at i1 i2 i3
        cases o with
        | ok a =>
          refine ⟨id, i2, fun l' hl => ?_⟩
          cases hl
          rw [List.map_cons, List.map_cons, i3 a rfl]
        | fail f => exact ⟨by show ¬ Bad (.fail f : Res (List Entry)); rw [bad_fail] at i1 ⊢; exact i1, i2, nofun⟩
    · obtain ⟨p1, p2, p3⟩ := resendEntry_sim x h (hl.imp (fun h => h x (List.mem_cons_self ..)) id)
      unfold M.bind
      cases hm : resendEntry env x e with
      | mk o e1 =>
        rw [hm] at p1 p2 p3
        cases o with
        | fail f => exact ⟨by show ¬ Bad (.fail f : Res (List Entry)); rw [bad_fail] at p1 ⊢; exact p1, p2, nofun⟩
        | ok y =>
          obtain ⟨i1, i2, i3⟩ := ih (h.sim p2) (by rw [p2.suite]; exact hl')
          show ¬ Bad (M.andThen (resendLoop env l e1) _).1 ∧ Sim e (M.andThen (resendLoop env l e1) _).2 ∧
            ∀ l', (M.andThen (resendLoop env l e1) _).1 = .ok l' → _
          cases hm' : resendLoop env l e1 with
          | mk o e2 =>
            rw [hm'] at i1 i2 i3
            cases o with
            | ok a =>
              refine ⟨id, p2.trans i2, fun l' hl => ?_⟩
              cases hl
              rw [List.map_cons, List.map_cons, i3 a rfl, p3 y rfl]
            | fail f => exact ⟨by show ¬ Bad (.fail f : Res (List Entry)); rw [bad_fail] at i1 ⊢; exact i1, p2.trans i2, nofun⟩

theorem flightResend_mild : Mild env (flightResend env) := by
  intro e h
  have hs : Sim e { e with saved := [], sealedDg := true } := ⟨rfl, rfl, rfl, rfl, rfl, rfl, rfl, .inl rfl⟩
  obtain ⟨i1, i2, i3⟩ := resendLoop_sim (env := env) e.saved (e := { e with saved := [], sealedDg := true }) (h.sim hs) h.saved
  unfold flightResend M.bind
  cases hm : resendLoop env e.saved { e with saved := [], sealedDg := true } with
  | mk o e1 =>
    rw [hm] at i1 i2 i3
    cases o with
    | ok a =>
      exact ⟨id, i2.suite, i2.enc, i2.next, i2.peer, i2.ku, i2.hs, i2.recv, .inr (i3 a rfl)⟩
    | fail f => exact ⟨by show ¬ Bad (.fail f : Res Unit); rw [bad_fail] at i1 ⊢; exact i1, hs.trans i2⟩

/-! ## Receiving -/

theorem noteOpened_sim (e : Eng) (k a c p ep sq) : Sim e (noteOpened e k a c p ep sq) := by
  have hg := noteOpened_gauge e k a c p ep sq
  unfold Eng.gauge at hg
  simp only [Gauge.mk.injEq] at hg
  obtain ⟨h1, h2, h3, h4, h5, h6⟩ := hg
  refine ⟨h1, ?_, h2, h3, h5, ?_, h4, .inr ?_⟩
  · unfold noteOpened Eng.replayUpdate
    split <;> rfl
  · unfold noteOpened Eng.replayUpdate
    split <;> rfl
  · unfold noteOpened Eng.replayUpdate
    split <;> rfl

theorem recordParse_mild (b : Bytes) : Mild env (recordParse env b) := by
  intro e he
  unfold recordParse
  by_cases hc : (isCiphertextHeader (flagsOf b) && e.peerEnc) = true
  · have hs := he.enc (by simp only [Bool.and_eq_true] at hc; exact hc.2)
    obtain ⟨cs, t, h1, h2⟩ := he.known hs
    have hu : unmask env e b ≠ none := by
      unfold unmask
      split
      · nofun
      · simp only
        split
        · split
          · nofun
          · rw [h1, h2]
            nofun
        · nofun
    simp only [hc, if_true]
    split
    · rename_i h; exact absurd h hu
    · split
      · unfold openRecord
        rw [h2]
        simp only
        repeat' (first | exact ⟨id, .refl e⟩ | split)
        all_goals exact ⟨id, noteOpened_sim ..⟩
      · rename_i h; exact absurd h (parse13_total _)
      · exact ⟨id, .refl e⟩
  · have hc : (isCiphertextHeader (flagsOf b) && e.peerEnc) = false := by simpa using hc
    simp only [hc, Bool.false_eq_true, if_false]
    split
    · exact ⟨id, .refl e⟩
    · rename_i h; exact absurd h (parse13_total _)
    · exact ⟨id, .refl e⟩

theorem parseSlices_mild (l : List Bytes) (x acc) : Mild env (parseSlices env l x acc) := by
  induction l generalizing acc with
  | nil => cases x <;> first | exact .pure _ | exact .transient
  | cons b l ih =>
    unfold parseSlices
    refine .bind (recordParse_mild b) fun r => ?_
    split
    · exact ih _
    · split
      · exact .transient
      · exact ih _

theorem processAck_mild (d) : Mild env (processAck env d) := by
  intro e he
  unfold processAck
  split
  · exact ⟨id, .refl e⟩
  · rename_i numbers _
    have hm : Sim e { e with saved := e.saved.map (markAcked numbers) } := by
      refine ⟨rfl, rfl, rfl, rfl, rfl, rfl, rfl, .inr ?_⟩
      simp only [List.map_map]
      refine List.map_congr_left fun x _ => ?_
      simp only [Function.comp, markAcked]
      split <;> rfl
    have ha : Sim { e with saved := e.saved.map (markAcked numbers) }
        (ackHandshakeFlight { e with saved := e.saved.map (markAcked numbers) }) := by
      unfold ackHandshakeFlight
      split
      · exact ⟨rfl, rfl, rfl, rfl, rfl, rfl, rfl, .inl rfl⟩
      · exact .refl _
    have hk := hm.trans ha
    revert hk
    generalize ackHandshakeFlight { e with saved := e.saved.map (markAcked numbers) } = e1
    intro hk
    unfold ackKeyUpdate
    rw [hk.ku, he.ku]
    exact ⟨id, hk⟩

theorem classify_mild (r) : Mild env (classify env r) := by
  intro e he
  unfold classify
  split
  · exact ⟨id, .refl e⟩
  split
  · exact ⟨id, .refl e⟩
  split
  · exact Mild.bind (processAck_mild _) (fun _ => .pure _) e he
  split
  · unfold classifyAlert
    split
    · exact ⟨id, .refl e⟩
    split
    · exact ⟨id, rfl, rfl, rfl, rfl, rfl, rfl, rfl, .inr rfl⟩
    split
    · exact ⟨id, .refl e⟩
    · exact ⟨id, .refl e⟩
  split
  · exact ⟨id, .refl e⟩
  · exact ⟨id, .refl e⟩

theorem classifyAll_mild (l acc) : Mild env (classifyAll env l acc) := by
  induction l generalizing acc with
  | nil => exact .pure _
  | cons r l ih =>
    unfold classifyAll
    refine .bind (classify_mild r) fun o => ?_
    split <;> exact ih _

theorem insertHs_mild (hs : SearchOk env.search) (rs) : Mild env (insertHs env rs) := by
  intro e he
  unfold insertHs
  simp only
  have := hs e.tick (e.rx.map fun item => E12.cmpPair (hsKey item) (hsKey rs))
  split
  · exact ⟨id, rfl, rfl, rfl, rfl, rfl, rfl, rfl, .inr rfl⟩
  · rename_i i hi
    rw [hi] at this
    simp only [List.getElem?_map] at this
    cases hx : e.rx[i]? with
    | none => rw [hx] at this; cases this
    | some x =>
      simp only
      split <;> exact ⟨id, rfl, rfl, rfl, rfl, rfl, rfl, rfl, .inr rfl⟩

theorem insertIncoming_mild (hs : SearchOk env.search) (rs) : Mild env (insertIncoming env rs) := by
  intro e he
  unfold insertIncoming
  split
  · exact ⟨id, .refl e⟩
  split
  · exact ⟨id, .refl e⟩
  split
  · refine Mild.bind ?_ ?_ e he
    · intro e he
      unfold maybeResend
      split
      · split
        · exact flightResend_mild e he
        · exact ⟨id, .refl e⟩
      · exact ⟨id, .refl e⟩
    · intro _ e he
      unfold insertHandshakeTail
      split
      · exact ⟨id, .refl e⟩
      split
      · exact ⟨id, .refl e⟩
      · exact insertHs_mild hs _ e he
  · unfold insertBySeq
    simp only
    split <;> exact ⟨id, rfl, rfl, rfl, rfl, rfl, rfl, rfl, .inr rfl⟩

/-- No datagram makes the parser panic, at any sound engine. -/
theorem parsePacket_mild (hs : SearchOk env.search) (p) : Mild env (parsePacket env p) := by
  unfold parsePacket recordsParse
  refine .bind (.bind (parseSlices_mild _ _ _) fun rs => classifyAll_mild rs []) fun rs => ?_
  split
  · exact .pure _
  · exact insertIncoming_mild hs _

theorem reparse_mild (hs : SearchOk env.search) (l) : Mild env (reparse env l) := by
  induction l with
  | nil => exact .pure _
  | cons b l ih => exact .bind (parsePacket_mild hs b) fun _ => ih

theorem ackDuty_mild (now : Nat) : Mild env (ackDuty env now) := by
  intro e he
  unfold ackDuty flushAck
  have hg : Sim e (scheduleAck now e) := by
    unfold scheduleAck
    repeat' (first | exact ⟨rfl, rfl, rfl, rfl, rfl, rfl, rfl, .inr rfl⟩ | split)
  have hk := he.sim hg
  generalize scheduleAck now e = x at *
  have hd : Sim x { x with ackDeadline := none } := ⟨rfl, rfl, rfl, rfl, rfl, rfl, rfl, .inr rfl⟩
  split
  · exact ⟨id, hg⟩
  · split
    · exact ⟨id, hg⟩
    · simp only
      split
      · exact ⟨id, hg.trans hd⟩
      · split
        · exact ⟨id, hg.trans hd⟩
        · rename_i hi
          have hs : x.suite ≠ none := by
            refine hk.keys fun h => hi ?_
            unfold inProgress
            rw [h]
            rfl
          obtain ⟨p1, p2⟩ := sealCipher_sim (env := env) (e := { x with ackDeadline := none }) (hk.sim hd) hs ctAck 2
            (ackBody (bufferedNumbers x))
          exact ⟨p1, (hg.trans hd).trans p2⟩

/-- No timeout makes the engine panic, at any sound engine. -/
theorem handleTimeout_mild (now : Nat) : Mild env (handleTimeout env now) := by
  intro e he
  unfold handleTimeout
  simp only
  have hx : ∀ t n, Sim e { e with timers := t, tick := n } := fun _ _ => ⟨rfl, rfl, rfl, rfl, rfl, rfl, rfl, .inr rfl⟩
  split
  · exact ⟨id, hx _ _⟩
  · exact ⟨id, hx _ _⟩
  · exact ⟨id, hx _ _⟩
  · obtain ⟨p1, p2⟩ := ackDuty_mild now _ (he.sim (hx (e.timers.handle e.cfg.handshakeTimeout now (env.jitter e.tick)).1 (e.tick + 1)))
    exact ⟨p1, (hx _ _).trans p2⟩
  · obtain ⟨p1, p2⟩ := Mild.bind (flightResend_mild (env := env)) (fun _ => ackDuty_mild now) _
      (he.sim (hx (e.timers.handle e.cfg.handshakeTimeout now (env.jitter e.tick)).1 (e.tick + 1)))
    exact ⟨p1, (hx _ _).trans p2⟩

end
end Verif.E13

import Verif.Lemmas.Recv13
import Verif.Lemmas.Suite13
import Verif.Lemmas.Quiet12
import Verif.Lemmas.Forged13
/-!
# Where a connected DTLS 1.3 engine does not panic
-/
namespace Verif.E13
open Verif Wire Window Timer Aead M
open Verif.E12 (Call SearchOk Bad bad_fail)

section
variable {env : Env} {α β : Type}

/-- What the panics depend on. -/
structure Gauge where
  suite : Option Nat
  nextSeq : Nat
  peerSeq : Nat
  recv : List Nat
  flight : Bool
  epoch : Nat

def Eng.gauge (e : Eng) : Gauge :=
  ⟨e.suite, e.nextSeq, e.peerSeq, e.appRecv.map (·.epoch), e.kuInFlight, e.appEpoch⟩

/-- A known suite, room for `n` more messages, one more message of the peer, one more epoch of the peer. -/
structure Room (env : Env) (n : Nat) (g : Gauge) : Prop where
  tag : ∃ cs t, g.suite = some cs ∧ env.suiteTag cs = some t
  next : g.nextSeq + n ≤ 65535
  peer : g.peerSeq < 65535
  recv : ∀ x ∈ g.recv, x < 65535

/-- And the outstanding KeyUpdate may be acknowledged. -/
def Turn (g : Gauge) : Prop := g.flight = true → g.epoch < 65535

/-- `m` does not panic and keeps `P`. -/
def Safe (P : Gauge → Prop) (m : E α) : Prop := ∀ e, P e.gauge → ¬ Bad (m e).1 ∧ P (m e).2.gauge

variable {P : Gauge → Prop}

theorem Safe.pure (a : α) : Safe P (M.pure a : E α) := fun _ h => ⟨id, h⟩
theorem Safe.transient : Safe P (M.transient : E α) := fun _ h => ⟨id, h⟩
theorem Safe.get : Safe P (M.get : E Eng) := fun _ h => ⟨id, h⟩
theorem Safe.modify {f : Eng → Eng} (h : ∀ e, (f e).gauge = e.gauge) : Safe P (M.modify f) :=
  fun e hp => ⟨id, by show P (f e).gauge; rw [h e]; exact hp⟩

theorem Safe.bind {m : E α} {f : α → E β} (h : Safe P m) (g : ∀ a, Safe P (f a)) : Safe P (M.bind m f) := by
  intro e hp
  obtain ⟨h1, h2⟩ := h e hp
  unfold M.bind
  cases hm : m e with
  | mk o e' =>
    rw [hm] at h1 h2
    cases o with
    | ok a => exact g a e' h2
    | fail x =>
      refine ⟨?_, h2⟩
      show ¬ Bad (.fail x : Res β)
      rw [bad_fail] at h1 ⊢
      exact h1

theorem Safe.at {m : E α} {e e' : Eng} (h : Safe P m) (hg : e'.gauge = e.gauge) (hp : P e.gauge) :
    ¬ Bad (m e').1 ∧ P (m e').2.gauge := h e' (hg ▸ hp)

/-- `P` includes a suite with a known AEAD. -/
def Knows (env : Env) (P : Gauge → Prop) : Prop := ∀ g, P g → ∃ cs t, g.suite = some cs ∧ env.suiteTag cs = some t

theorem known_tag {e : Eng} {cs t : Nat} (h1 : e.suite = some cs) (h2 : env.suiteTag cs = some t) : e.tag env = some t := by
  unfold Eng.tag
  rw [h1]
  exact h2

theorem pushWire_gauge (s : Eng) (a b) : (pushWire s a b).gauge = s.gauge := by
  unfold pushWire
  split <;> rfl

theorem countSent_gauge (s : Eng) (sl ep) : (countSent s sl ep).gauge = s.gauge := by
  unfold countSent
  cases sl
  · rfl
  · rfl
  · simp only
    split <;> rfl

theorem emitCipher_gauge (s : Eng) (suite sl k c ep a f ct) : (emitCipher env s suite sl k c ep a f ct).gauge = s.gauge :=
  (pushWire_gauge (countSent s sl ep) a _).trans (countSent_gauge s sl ep)

theorem queueCipher_safe (suite sl k c ep f ct) : Safe P (queueCipher env suite sl k c ep f ct) := by
  intro e hp
  unfold queueCipher
  simp only
  split
  · exact ⟨id, hp⟩
  · split
    · exact ⟨id, hp⟩
    · exact ⟨id, by rw [emitCipher_gauge]; exact hp⟩

theorem sealCipher_safe (hk : Knows env P) (c ep f) : Safe P (sealCipher env c ep f) := by
  intro e hp
  obtain ⟨cs, t, h1, h2⟩ := hk _ hp
  have h1 : e.suite = some cs := h1
  unfold sealCipher
  split
  · split
    · exact ⟨id, hp⟩
    · simp only
      split
      · exact ⟨id, hp⟩
      · exact (queueCipher_safe _ _ _ _ _ _ _).at rfl hp
  · rename_i h
    exact (h cs t h1 (known_tag h1 h2)).elim

theorem createCipher_safe (hk : Knows env P) (c ep f) : Safe P (createCipher env c ep false f) := by
  intro e hp
  unfold createCipher saveEntry
  exact sealCipher_safe hk c ep f e hp

theorem createPlain_safe (c f) : Safe P (createPlain c false f) := by
  intro e hp
  unfold createPlain saveEntry
  simp only [Bool.false_eq_true, if_false]
  split
  · exact ⟨id, hp⟩
  · split
    · exact ⟨id, hp⟩
    · refine ⟨id, ?_⟩
      unfold emitPlain pushWire
      split <;> exact hp

theorem resendEntry_safe (hk : Knows env P) (x : Entry) : Safe P (resendEntry env x) := by
  intro e hp
  unfold resendEntry
  split
  · exact Safe.bind (createPlain_safe _ _) (fun _ => .pure _) e hp
  · exact Safe.bind (createCipher_safe hk _ _ _) (fun _ => .pure _) e hp

theorem resendLoop_safe (hk : Knows env P) (l : List Entry) : Safe P (resendLoop env l) := by
  induction l with
  | nil => exact .pure _
  | cons x l ih =>
    unfold resendLoop
    split
    · exact .bind ih fun _ => .pure _
    · exact .bind (resendEntry_safe hk x) fun _ => .bind ih fun _ => .pure _

theorem flightResend_safe (hk : Knows env P) : Safe P (flightResend env) := by
  intro e hp
  unfold flightResend
  exact (Safe.bind (resendLoop_safe hk e.saved) fun es => Safe.modify (f := fun t : Eng => { t with saved := es }) fun _ => rfl).at
    (e := e) rfl hp

theorem noteOpened_gauge (s : Eng) (k a c p ep sq) : (noteOpened s k a c p ep sq).gauge = s.gauge := by
  unfold noteOpened Eng.replayUpdate
  split
  · rfl
  · unfold Eng.gauge
    simp only [Gauge.mk.injEq, true_and, and_true]
    induction s.appRecv with
    | nil => rfl
    | cons r l ih =>
      unfold updateFirst
      split
      · rfl
      · simp only [List.map_cons, List.cons.injEq, true_and]
        exact ih

theorem openRecord_safe (hk : Knows env P) (b f r) : Safe P (openRecord env b f r) := by
  intro e hp
  obtain ⟨cs, t, h1, h2⟩ := hk _ hp
  unfold openRecord
  rw [known_tag h1 h2]
  simp only
  repeat' (first | exact ⟨id, hp⟩ | split)
  all_goals exact ⟨id, by rw [noteOpened_gauge]; exact hp⟩

theorem recordParse_safe (hk : Knows env P) (b) : Safe P (recordParse env b) := by
  intro e hp
  obtain ⟨cs, t, h1, h2⟩ := hk _ hp
  have h1' : e.suite = some cs := h1
  unfold recordParse
  have hu : (if (isCiphertextHeader (flagsOf b) && e.peerEnc) = true then unmask env e b else some b) ≠ none := by
    split
    · unfold unmask
      split
      · nofun
      · simp only
        split
        · split
          · nofun
          · rw [h1', known_tag h1 h2]
            nofun
        · nofun
    · nofun
  simp only
  split
  · rename_i h; exact absurd h hu
  · split
    · split
      · exact openRecord_safe hk _ _ _ e hp
      · exact ⟨id, hp⟩
    · rename_i h; exact absurd h (parse13_total _)
    · exact ⟨id, hp⟩

theorem parseSlices_safe (hk : Knows env P) (l : List Bytes) (x acc) : Safe P (parseSlices env l x acc) := by
  induction l generalizing acc with
  | nil => cases x <;> first | exact .pure _ | exact .transient
  | cons b l ih =>
    unfold parseSlices
    refine .bind (recordParse_safe hk b) fun r => ?_
    split
    · exact ih _
    · split
      · exact .transient
      · exact ih _

theorem deriveNextSecret_safe {e : Eng} {n : Nat} (hp : Room env n e.gauge) (x) :
    ¬ Bad (deriveNextSecret env x e).1 ∧ (deriveNextSecret env x e).2 = e := by
  obtain ⟨cs, t, h1, h2⟩ := hp.tag
  have h1 : e.suite = some cs := h1
  unfold deriveNextSecret
  rw [h1]
  simp only
  split <;> exact ⟨id, rfl⟩

theorem deriveEpochKeys_safe {e : Eng} {n : Nat} (hp : Room env n e.gauge) (x) :
    ¬ Bad (deriveEpochKeys env x e).1 ∧ (deriveEpochKeys env x e).2 = e := by
  obtain ⟨cs, t, h1, h2⟩ := hp.tag
  have h1 : e.suite = some cs := h1
  unfold deriveEpochKeys
  split
  · split <;> exact ⟨id, rfl⟩
  · rename_i h
    exact (h cs t h1 (known_tag h1 h2)).elim

theorem fine_bind {m : E α} {f : α → E β} {e : Eng} {Q : Res β × Eng → Prop} (hm : ¬ Bad (m e).1) (he : (m e).2 = e)
    (hf : ∀ x, ¬ Bad (.fail x : Res β) → Q (.fail x, e)) (hq : ∀ a, Q (f a e)) : Q (M.bind m f e) := by
  unfold M.bind
  cases h : m e with
  | mk o e' =>
    rw [h] at hm he
    cases he
    cases o with
    | ok a => exact hq a
    | fail x => exact hf x (by rw [bad_fail] at hm ⊢; exact hm)

theorem updateSendKeys_safe {e : Eng} {n : Nat} (hp : Room env n e.gauge) (ht : e.appEpoch < 65535) :
    ¬ Bad (updateSendKeys env e).1 ∧ Room env n (updateSendKeys env e).2.gauge ∧
    (∀ f, (updateSendKeys env e).1 = .fail f → (updateSendKeys env e).2.gauge = e.gauge) := by
  unfold updateSendKeys
  split
  · exact ⟨id, hp, fun _ _ => rfl⟩
  · rename_i k hk
    obtain ⟨d1, d2⟩ := deriveNextSecret_safe (e := { e with appSend := none }) hp k.secret
    refine fine_bind (Q := fun r => ¬ Bad r.1 ∧ Room env n r.2.gauge ∧ (∀ f, r.1 = .fail f → r.2.gauge = e.gauge)) d1 d2
      (fun x hx => ⟨hx, hp, fun _ _ => rfl⟩) fun x => ?_
    obtain ⟨d1, d2⟩ := deriveEpochKeys_safe (e := { e with appSend := none }) hp x
    refine fine_bind (Q := fun r => ¬ Bad r.1 ∧ Room env n r.2.gauge ∧ (∀ f, r.1 = .fail f → r.2.gauge = e.gauge)) d1 d2
      (fun x hx => ⟨hx, hp, fun _ _ => rfl⟩) fun k' => ?_
    have hb : M.bind M.get (fun t : Eng => if t.appEpoch ≥ 65535 then M.panic else M.modify (rotateSend env k k'))
        { e with appSend := none } = (.ok (), rotateSend env k k' { e with appSend := none }) := by
      show (if e.appEpoch ≥ 65535 then M.panic else M.modify (rotateSend env k k')) { e with appSend := none } = _
      rw [if_neg (by omega)]
      rfl
    rw [hb]
    exact ⟨id, ⟨hp.tag, hp.next, hp.peer, hp.recv⟩, nofun⟩

/-- An ACK may complete a KeyUpdate. -/
theorem ackKeyUpdate_safe {n : Nat} : Safe (fun g => Room env n g ∧ Turn g) (ackKeyUpdate env) := by
  intro e ⟨hp, ht⟩
  unfold ackKeyUpdate
  split
  · rename_i hc
    simp only [Bool.and_eq_true] at hc
    obtain ⟨h1, h2, h3⟩ := updateSendKeys_safe hp (ht hc.1.1)
    unfold M.bind
    cases h : updateSendKeys env e with
    | mk o e' =>
      rw [h] at h1 h2 h3
      cases o with
      | ok a => exact ⟨id, ⟨h2.tag, h2.next, h2.peer, h2.recv⟩, nofun⟩
      | fail x =>
        refine ⟨by rw [bad_fail] at h1; show ¬ Bad (.fail x : Res Unit); rw [bad_fail]; exact h1, h2, ?_⟩
        show Turn e'.gauge
        rw [h3 x rfl]
        exact ht
  · exact ⟨id, hp, ht⟩

theorem processAck_safe {n : Nat} (d) : Safe (fun g => Room env n g ∧ Turn g) (processAck env d) := by
  intro e hp
  unfold processAck
  split
  · exact ⟨id, hp⟩
  · refine ackKeyUpdate_safe.at ?_ hp
    unfold ackHandshakeFlight
    split <;> rfl

theorem classify_safe {n : Nat} (r) : Safe (fun g => Room env n g ∧ Turn g) (classify env r) := by
  intro e hp
  unfold classify
  split
  · exact ⟨id, hp⟩
  · split
    · exact ⟨id, hp⟩
    · split
      · exact Safe.bind (processAck_safe _) (fun _ => .pure _) e hp
      · split
        · unfold classifyAlert
          repeat' (first | exact ⟨id, hp⟩ | split)
        · split <;> exact ⟨id, hp⟩

theorem classifyAll_safe {n : Nat} (l acc) : Safe (fun g => Room env n g ∧ Turn g) (classifyAll env l acc) := by
  induction l generalizing acc with
  | nil => exact .pure _
  | cons r l ih =>
    unfold classifyAll
    refine .bind (classify_safe r) fun o => ?_
    split <;> exact ih _

theorem knows_room {n : Nat} : Knows env (fun g => Room env n g ∧ Turn g) := fun _ h => h.1.tag
theorem knows_room' {n : Nat} : Knows env (Room env n) := fun _ h => h.tag

theorem insertHs_safe (hs : SearchOk env.search) (rs) : Safe P (insertHs env rs) := by
  intro e hp
  unfold insertHs
  simp only
  have := hs e.tick (e.rx.map fun item => E12.cmpPair (hsKey item) (hsKey rs))
  split
  · exact ⟨id, hp⟩
  · rename_i i hi
    rw [hi] at this
    simp only [List.getElem?_map] at this
    cases hx : e.rx[i]? with
    | none => rw [hx] at this; cases this
    | some x =>
      simp only
      split <;> exact ⟨id, hp⟩

theorem insertIncoming_safe (hs : SearchOk env.search) (hk : Knows env P) (rs) : Safe P (insertIncoming env rs) := by
  intro e hp
  unfold insertIncoming
  split
  · exact ⟨id, hp⟩
  · split
    · exact ⟨id, hp⟩
    · split
      · refine Safe.bind ?_ ?_ e hp
        · intro e hp
          unfold maybeResend
          split
          · split
            · exact flightResend_safe hk e hp
            · exact ⟨id, hp⟩
          · exact ⟨id, hp⟩
        · intro _ e hp
          unfold insertHandshakeTail
          split
          · exact ⟨id, hp⟩
          · split
            · exact ⟨id, hp⟩
            · exact insertHs_safe hs _ e hp
      · unfold insertBySeq
        simp only
        split <;> exact ⟨id, hp⟩

theorem parsePacket_safe {n : Nat} (hs : SearchOk env.search) (p) :
    Safe (fun g => Room env n g ∧ Turn g) (parsePacket env p) := by
  unfold parsePacket recordsParse
  refine .bind (.bind (parseSlices_safe knows_room _ _ _) fun rs => classifyAll_safe rs []) fun rs => ?_
  split
  · exact .pure _
  · exact insertIncoming_safe hs knows_room _

theorem handleTimeout_safe (hk : Knows env P) (now) : Safe P (handleTimeout env now) := by
  intro e hp
  have duty : Safe P (ackDuty env now) := by
    intro e hp
    unfold ackDuty flushAck
    have hg : (scheduleAck now e).gauge = e.gauge := by
      unfold scheduleAck
      repeat' (first | rfl | split)
    generalize scheduleAck now e = x at *
    split
    · exact ⟨id, hg ▸ hp⟩
    · split
      · exact ⟨id, hg ▸ hp⟩
      · simp only
        split
        · exact ⟨id, by rw [← hg] at hp; exact hp⟩
        · split
          · exact ⟨id, by rw [← hg] at hp; exact hp⟩
          · exact (createCipher_safe hk _ _ _).at hg hp
  unfold handleTimeout
  simp only
  split
  · exact ⟨id, hp⟩
  · exact ⟨id, hp⟩
  · exact ⟨id, hp⟩
  · exact duty.at rfl hp
  · exact (Safe.bind (flightResend_safe hk) fun _ => duty).at rfl hp

end
end Verif.E13

import Verif.Lemmas.Run13
import Verif.Lemmas.Split13
/-!
# What the receive side of the DTLS 1.3 engine can do

Every engine method is a sequence of the small steps `RStep`. Properties of the receive side are proved
once per small step.
-/
namespace Verif.E13
open Verif Wire Window Timer Aead M
open Verif.E12 (insertAt cmpPair Call)

/-- Events of the receive side. -/
def Ev.isRx : Ev → Bool
  | .opened .. | .taken .. | .accepted .. | .delivered .. => true
  | _ => false

/-- The receive side of an engine. -/
structure RxPart where
  cfg : Cfg
  suite : Option Nat
  hsRecv : Option Keys
  hsExpected : Nat
  hsReplay : ReplayWindow
  appRecv : List RecvEpoch
  peerEnc : Bool
  peerSeq : Nat
  release : Bool
  closeSeq : Option (Nat × Nat)
  closeReported : Bool
  rx : List (List Rx)
  log : List Ev

def Eng.rp (s : Eng) : RxPart :=
  { cfg := s.cfg, suite := s.suite, hsRecv := s.hsRecv, hsExpected := s.hsExpected, hsReplay := s.hsReplay,
    appRecv := s.appRecv, peerEnc := s.peerEnc, peerSeq := s.peerSeq, release := s.release,
    closeSeq := s.closeSeq, closeReported := s.closeReported, rx := s.rx, log := s.log.filter Ev.isRx }

section same
variable {env : Env}

theorem createPlain_rp (c sv f) (s : Eng) : (createPlain c sv f s).2.rp = s.rp := by
  refine createPlain_ind (motive := fun r => r.2.rp = s.rp) c sv f s (fun _ _ => rfl) (fun _ _ _ => rfl) ?_
  intro _ _ _
  unfold emitPlain pushWire
  split <;> rfl

theorem emitCipher_rp (env : Env) (s : Eng) (suite sl k c ep a f ct) :
    (emitCipher env s suite sl k c ep a f ct).rp = s.rp := by
  obtain ⟨a1, a2, a3, a4, a5, h1⟩ := countSent_eq s sl ep
  unfold emitCipher
  dsimp only
  rw [h1]
  unfold pushWire
  split <;> rfl

theorem createCipher_rp (c ep sv f) (s : Eng) : (createCipher env c ep sv f s).2.rp = s.rp := by
  refine createCipher_ind (motive := fun r => r.2.rp = s.rp) env c ep sv f s (fun _ _ => rfl)
    (fun _ _ _ => rfl) (fun _ _ _ _ _ _ _ _ => rfl) ?_
  intro suite tag k ct _ _ _ _
  exact emitCipher_rp ..

theorem resendEntry_rp (x : Entry) (s : Eng) : (resendEntry env x s).2.rp = s.rp := by
  unfold resendEntry
  split
  · rw [bind_snd]; split <;> exact createPlain_rp ..
  · rw [bind_snd]; split <;> exact createCipher_rp ..

theorem resendLoop_rp (l : List Entry) (s : Eng) : (resendLoop env l s).2.rp = s.rp := by
  induction l generalizing s with
  | nil => rfl
  | cons x l ih =>
    unfold resendLoop
    split
    · rw [bind_snd]; split <;> exact ih s
    · rw [bind_snd]; split
      · rw [bind_snd]; split <;> exact (ih _).trans (resendEntry_rp x s)
      · exact resendEntry_rp x s

theorem flightResend_rp (s : Eng) : (flightResend env s).2.rp = s.rp := by
  unfold flightResend
  rw [bind_snd]; split <;> exact resendLoop_rp s.saved { s with saved := [], sealedDg := true }

theorem createHsRecord_rp (ep f) (s : Eng) : (createHsRecord env ep f s).2.rp = s.rp := by
  unfold createHsRecord
  split
  · exact createPlain_rp ..
  · exact createCipher_rp ..

theorem fragmentLoop_rp (t seq ep fixed body n off) (s : Eng) :
    (fragmentLoop env t seq ep fixed body n off s).2.rp = s.rp := by
  induction n generalizing off s with
  | zero => rfl
  | succ n ih =>
    unfold fragmentLoop
    split
    · rw [bind_snd]
      show ((M.bind (createHsRecord env ep _) _) s).2.rp = s.rp
      rw [bind_snd]
      split
      · split
        · exact createHsRecord_rp ..
        · exact (ih _ _).trans (createHsRecord_rp ..)
      · exact createHsRecord_rp ..
    · rfl

theorem createHandshake_rp (t b) (s : Eng) : (createHandshake env t b s).2.rp = s.rp := by
  unfold createHandshake
  dsimp only
  split
  · rfl
  · split
    · rfl
    · exact fragmentLoop_rp ..

theorem sendAckInner_rp (sv) (s : Eng) : (sendAckInner env sv s).2.rp = s.rp := by
  unfold sendAckInner
  split
  · rfl
  · exact createCipher_rp ..

theorem sendAckRetransmittable_rp (s : Eng) : (sendAckRetransmittable env s).2.rp = s.rp := by
  unfold sendAckRetransmittable
  rw [sendAckInner_rp]
  split <;> rfl

theorem flushAck_rp (now) (s : Eng) : (flushAck env now s).2.rp = s.rp := by
  unfold flushAck
  split
  · rfl
  · split
    · rfl
    · dsimp only
      split
      · rfl
      · split
        · rfl
        · exact createCipher_rp ..

theorem scheduleAck_rp (now) (s : Eng) : (scheduleAck now s).rp = s.rp := by
  unfold scheduleAck
  repeat' split
  all_goals rfl

theorem ackDuty_rp (now) (s : Eng) : (ackDuty env now s).2.rp = s.rp :=
  (flushAck_rp now _).trans (scheduleAck_rp now s)

theorem handleTimeout_rp (now) (s : Eng) : (handleTimeout env now s).2.rp = s.rp := by
  unfold handleTimeout
  dsimp only
  split
  · rfl
  · rfl
  · rfl
  · exact ackDuty_rp ..
  · rw [bind_snd]; split
    · exact (ackDuty_rp now _).trans (flightResend_rp _)
    · exact flightResend_rp _

theorem deriveEpochKeys_rp (x) (s : Eng) : (deriveEpochKeys env x s).2 = s := by
  unfold deriveEpochKeys
  repeat' split
  all_goals rfl

theorem deriveNextSecret_rp (x) (s : Eng) : (deriveNextSecret env x s).2 = s := by
  unfold deriveNextSecret
  repeat' split
  all_goals rfl

theorem updateSendKeys_rp (s : Eng) : (updateSendKeys env s).2.rp = s.rp := by
  refine of_wp (fun s' : Eng => s'.rp = s.rp) ?_
  exact wp_updateSendKeys (fun _ => rfl) (fun _ _ => rfl) (fun _ _ _ _ _ _ _ _ _ => rfl)

theorem ackKeyUpdate_rp (s : Eng) : (ackKeyUpdate env s).2.rp = s.rp := by
  unfold ackKeyUpdate
  split
  · rw [bind_snd]; split <;> exact updateSendKeys_rp s
  · rfl

theorem processAck_rp (d) (s : Eng) : (processAck env d s).2.rp = s.rp := by
  unfold processAck
  split
  · rfl
  · rw [ackKeyUpdate_rp]
    unfold ackHandshakeFlight
    split <;> rfl

theorem createKeyUpdate_rp (r) (s : Eng) : (createKeyUpdate env r s).2.rp = s.rp := by
  refine of_wp (fun s' : Eng => s'.rp = s.rp) ?_
  unfold createKeyUpdate
  rw [wp_bind, wp_modify, wp_bind, wp_get]
  split
  · rfl
  · rw [wp_bind, wp_modify, wp_bind]
    refine wp_mono (to_wp (R := fun s' : Eng => s'.rp = s.rp) (createCipher_rp ..)) ?_ (fun _ _ h => h)
    intro _ t h
    rw [wp_modify]
    exact h

theorem replaceTranscript_rp (n) (s : Eng) : (replaceTranscript env n s).2.rp = s.rp := by
  unfold replaceTranscript
  split
  · rfl
  · split <;> rfl

end same

/-! ## Steps -/

/-- A record of a datagram is opened: everything `Record::parse` checks. `sl` is the record as received,
`b` the record with its number unmasked. -/
structure Opens (env : Env) (s : Eng) (sl b : Bytes) (r : Rec13) (tag : Nat) (k : Keys) (epoch seq : Nat)
    (plain : Bytes) : Prop where
  header : isCiphertextHeader (flagsOf sl) = true
  enc : s.peerEnc = true
  clear : unmask env s sl = some b
  parsed : ∃ rest, parse13 b = .ok rest r
  epochEq : epoch = s.resolveEpoch r.epoch
  seqEq : seq = s.resolveSeq epoch r.seq (flagS (flagsOf sl))
  fresh : s.replayCheck epoch seq = true
  tagEq : s.tag env = some tag
  long : tag ≤ b.length - r.headerLen
  keyed : s.recvKeys epoch = some k
  dec : env.dec k.key (nonceXor k.iv seq) (b.take r.headerLen) (b.drop r.headerLen) = some plain

/-- The engine after opening a record. -/
def openedSt (s : Eng) (b : Bytes) (r : Rec13) (k : Keys) (epoch seq : Nat) (plain : Bytes) : Eng :=
  noteOpened s k (b.take r.headerLen) (b.drop r.headerLen) plain epoch seq

/-- The first message of a datagram that is kept is not stale, and after the handshake it is a
KeyUpdate. -/
def HsOk (s : Eng) (l : List Rx) : Prop :=
  ∀ h, firstHs l = some h → s.peerSeq ≤ h.header.messageSeq ∧ (s.release = true → h.header.msgType = mtKeyUpdate)

/-- Not ordered after the close_notify. -/
def NotAfter (c : Option (Nat × Nat)) (r : Rx) : Prop :=
  ∀ x, c = some x → seqGt (r.rcd.epoch, r.rcd.seq) x = false

/-- What classification keeps. -/
def Kept (c : Option (Nat × Nat)) (r : Rx) : Prop :=
  NotAfter c r ∧ r.rcd.ctype ≠ ctAck ∧ r.rcd.ctype ≠ ctAlert ∧ r.rcd.ctype ≠ ctCCS

/-- A whole message is at the front of the queue. -/
structure Takes (s : Eng) (t : UInt8) (first : Hs) (rest : List Hs) : Prop where
  complete : hasComplete s t = true
  view : nextView s.rx = first :: rest
  few : (fragmentRun first rest).length ≤ 50
  whole : (assembled first (fragmentRun first rest).tail).length = first.header.length

/-- The datagram being processed: none, or the close_notify known when it arrived and the records found
so far. -/
inductive Hand where
  | idle
  | busy (closed : Option (Nat × Nat)) (l : List Rx)

/-- Small steps. `keys`: installing the first keys of an epoch chain is among them; `poll`: what only
`poll_output` does is among them, and what it never does is not. -/
inductive RStep (env : Env) (keys poll : Bool) : Eng × Hand → Eng × Hand → Prop
  | other {s s' : Eng} {h} : s'.rp = s.rp → RStep env keys poll (s, h) (s', h)
  | arrive {s : Eng} : RStep env keys poll (s, .idle) (s, .busy s.closeSeq [])
  | noted {s : Eng} {c l sl b r tag k epoch seq plain} : Opens env s sl b r tag k epoch seq plain →
      RStep env keys poll (s, .busy c l) (openedSt s b r k epoch seq plain, .busy c l)
  | opened {s : Eng} {c l sl b r tag k epoch seq plain ct content} : Opens env s sl b r tag k epoch seq plain →
      recoverInner plain = some (ct, content) →
      RStep env keys poll (s, .busy c l) (openedSt s b r k epoch seq plain,
        .busy c (l ++ [openedRx b r epoch seq plain ct content]))
  | plain {s : Eng} {c l sl rest r} : parse13 sl = .ok rest r →
      (isCiphertextHeader (flagsOf sl) && s.peerEnc) = false → split13 sl = ([sl], .done) →
      RStep env keys poll (s, .busy c l) (s, .busy c (l ++ [plainRx sl r]))
  | drop {s : Eng} {c l l'} : l'.Sublist l → RStep env keys poll (s, .busy c l) (s, .busy c l')
  | close {s : Eng} {c l r} : r ∈ l → r.rcd.ctype = ctAlert → ¬ (r.rcd.epoch = 0 ∧ s.peerEnc = true) →
      afterClose s r = false → r.rcd.fragment[1]? = some 0 →
      RStep env keys poll (s, .busy c l)
        ({ s with closeSeq := some (s.closeSeq.getD (r.rcd.epoch, r.rcd.seq)) }, .busy c l)
  | done {s : Eng} {c l} : RStep env keys poll (s, .busy c l) (s, .idle)
  | insert {s : Eng} {c l} (i : Nat) : l ≠ [] → s.rx.length < s.cfg.maxRx → HsOk s l → (∀ r ∈ l, Kept c r) →
      RStep env keys poll (s, .busy c l) ({ s with rx := insertAt s.rx i l }, .idle)
  | replace {s : Eng} {c l i ex} : l ≠ [] → s.rx[i]? = some ex → shouldReplace ex l = true →
      s.rx.length < s.cfg.maxRx → HsOk s l → (∀ r ∈ l, Kept c r) →
      RStep env keys poll (s, .busy c l) ({ s with rx := s.rx.set i l }, .idle)
  | enable {s : Eng} (i : Nat) : keys = true → poll = false → (∀ x ∈ (s.rx.take i).flatten, x.rcd.epoch < 2) →
      RStep env keys poll (s, .idle) ({ s with peerEnc := true, rx := s.rx.take i }, .idle)
  | marked {s : Eng} {t first rest} : Takes s t first rest →
      RStep env keys poll (s, .idle) ({ s with rx := markQueue false (fragmentRun first rest).length s.rx }, .idle)
  | taken {s : Eng} {t first rest} : Takes s t first rest →
      RStep env keys poll (s, .idle) ({ s with
        rx := markQueue false (fragmentRun first rest).length s.rx
        log := .taken first.header.messageSeq first.header.msgType
          (assembled first (fragmentRun first rest).tail) :: s.log }, .idle)
  | accepted {s : Eng} : s.peerSeq < 65535 →
      RStep env keys poll (s, .idle) ({ s with peerSeq := s.peerSeq + 1, log := .accepted s.peerSeq :: s.log }, .idle)
  | release {s : Eng} : keys = true → poll = false → RStep env keys poll (s, .idle) (releaseAppData s, .idle)
  | retain {s : Eng} : keys = true → poll = false → RStep env keys poll (s, .idle) (releaseRetaining s, .idle)
  | suite {s : Eng} (cs : Nat) : env.allowed.contains cs = true → RStep env keys poll (s, .idle) ({ s with suite := some cs }, .idle)
  | hsRecv {s : Eng} {suite x k} : keys = true → env.epochKeys suite x = some k →
      RStep env keys poll (s, .idle) ({ s with hsRecv := some k }, .idle)
  | appRecv {s : Eng} {suite x k} : keys = true → env.epochKeys suite x = some k → s.appRecv.length < 4 →
      RStep env keys poll (s, .idle) ({ s with
        appRecv := s.appRecv ++ [{ epoch := 3, keys := k, expected := 0, replay := .new }] }, .idle)
  | newRecv {s : Eng} {latest suite secret k} : s.appRecv.getLast? = some latest → latest.epoch < 65535 →
      s.suite = some suite → env.nextSecret suite latest.keys.secret = some secret →
      env.epochKeys suite secret = some k →
      RStep env keys poll (s, .idle) ({ s with
        appRecv := (if s.appRecv.length ≥ 4 then s.appRecv.drop 1 else s.appRecv) ++
          [{ epoch := latest.epoch + 1, keys := k, expected := 0, replay := .new }] }, .idle)
  | retry {s : Eng} : keys = true → RStep env keys poll (s, .idle) (resetForHelloRetry s, .idle)
  | purge {s : Eng} : poll = true → RStep env keys poll (s, .idle) (E13.purge s, .idle)
  | deliver {s : Eng} {r} : poll = true → s.release = true → nextApp s = some r →
      RStep env keys poll (s, .idle) ({ s with rx := markApp s.rx, log := .delivered r.rcd r.opened :: s.log }, .idle)
  | reported {s : Eng} : poll = true → s.closeSeq.isSome = true → s.closeReported = false →
      RStep env keys poll (s, .idle) ({ s with closeReported := true }, .idle)

/-- Any number of steps. -/
inductive RSteps (env : Env) (keys poll : Bool) : Eng × Hand → Eng × Hand → Prop
  | refl {a} : RSteps env keys poll a a
  | tail {a b c} : RSteps env keys poll a b → RStep env keys poll b c → RSteps env keys poll a c

theorem RSteps.trans {env : Env} {keys poll : Bool} {a b c} (h : RSteps env keys poll a b) (g : RSteps env keys poll b c) : RSteps env keys poll a c := by
  induction g with
  | refl => exact h
  | tail _ g ih => exact ih.tail g

/-- What every step keeps. -/
theorem RSteps.keeps {env : Env} {keys poll : Bool} {P : Eng → Hand → Prop}
    (h : ∀ (s s' : Eng) (a a' : Hand), RStep env keys poll (s, a) (s', a') → P s a → P s' a') {a b} (g : RSteps env keys poll a b)
    (h0 : P a.1 a.2) : P b.1 b.2 := by
  induction g with
  | refl => exact h0
  | tail _ g ih => exact h _ _ _ _ g ih

/-- From one engine to another, between datagrams. -/
def RMove (env : Env) (keys poll : Bool) (e e' : Eng) : Prop := RSteps env keys poll (e, .idle) (e', .idle)

theorem RMove.refl {env : Env} {keys poll : Bool} (e : Eng) : RMove env keys poll e e := RSteps.refl
theorem RMove.trans {env : Env} {keys poll : Bool} {a b c : Eng} (h : RMove env keys poll a b) (g : RMove env keys poll b c) : RMove env keys poll a c :=
  RSteps.trans h g
theorem RMove.other {env : Env} {keys poll : Bool} {s s' : Eng} (g : s'.rp = s.rp) : RMove env keys poll s s' := .tail .refl (.other g)
theorem RMove.one {env : Env} {keys poll : Bool} {s s' : Eng} (g : RStep env keys poll (s, .idle) (s', .idle)) : RMove env keys poll s s' := .tail .refl g

section steps
variable {env : Env} {keys poll : Bool} {o : Eng × Hand}

theorem openRecord_rx {s : Eng} {c : Option (Nat × Nat)} {l : List Rx} (h : RSteps env keys poll o (s, .busy c l))
    {sl b rest : Bytes} {r : Rec13}
    (h1 : isCiphertextHeader (flagsOf sl) = true) (h2 : s.peerEnc = true) (h3 : unmask env s sl = some b)
    (h4 : parse13 b = .ok rest r) :
    wp (openRecord env b (flagS (flagsOf sl)) r) s
      (fun x s' => RSteps env keys poll o (s', .busy c (l ++ x.toList)) ∧ s'.closeSeq = s.closeSeq)
      (fun _ s' => s' = s) := by
  have same : RSteps env keys poll o (s, .busy c (l ++ (none : Option Rx).toList)) ∧ s.closeSeq = s.closeSeq :=
    ⟨by simpa using h, rfl⟩
  unfold wp openRecord
  dsimp only
  by_cases g1 : s.replayCheck (s.resolveEpoch r.epoch)
      (s.resolveSeq (s.resolveEpoch r.epoch) r.seq (flagS (flagsOf sl))) = true
  · simp only [g1]
    cases g2 : s.tag env with
    | none => rfl
    | some tag =>
      dsimp only
      by_cases g3 : b.length - r.headerLen < tag
      · simp only [g3]; exact same
      · simp only [g3]
        cases g4 : s.recvKeys (s.resolveEpoch r.epoch) with
        | none => exact same
        | some k =>
          dsimp only
          cases g5 : env.dec k.key (nonceXor k.iv
              (s.resolveSeq (s.resolveEpoch r.epoch) r.seq (flagS (flagsOf sl))))
              (b.take r.headerLen) (b.drop r.headerLen) with
          | none => exact same
          | some plain =>
            have ho : Opens env s sl b r tag k (s.resolveEpoch r.epoch)
              (s.resolveSeq (s.resolveEpoch r.epoch) r.seq (flagS (flagsOf sl))) plain :=
              ⟨h1, h2, h3, ⟨rest, h4⟩, rfl, rfl, g1, g2, by omega, g4, g5⟩
            have hc : ∀ s : Eng, ∀ ep sq, (openedSt s b r k ep sq plain).closeSeq = s.closeSeq := by
              intro s ep sq
              unfold openedSt noteOpened Eng.replayUpdate
              split <;> rfl
            dsimp only
            cases g6 : recoverInner plain with
            | none =>
              refine ⟨?_, hc ..⟩
              rw [Option.toList_none, List.append_nil]
              exact h.tail (.noted ho)
            | some x => exact ⟨h.tail (.opened ho g6), hc ..⟩
  · simp only [g1]; exact same

theorem recordParse_rx {s : Eng} {c : Option (Nat × Nat)} {l : List Rx} (h : RSteps env keys poll o (s, .busy c l))
    {sl : Bytes} (hs : split13 sl = ([sl], .done)) :
    wp (recordParse env sl) s
      (fun x s' => RSteps env keys poll o (s', .busy c (l ++ x.toList)) ∧ s'.closeSeq = s.closeSeq)
      (fun _ s' => s' = s) := by
  have same : RSteps env keys poll o (s, .busy c (l ++ (none : Option Rx).toList)) ∧ s.closeSeq = s.closeSeq :=
    ⟨by simpa using h, rfl⟩
  unfold recordParse
  by_cases g : (isCiphertextHeader (flagsOf sl) && s.peerEnc) = true
  · have g' := g
    rw [Bool.and_eq_true] at g'
    cases g2 : unmask env s sl with
    | none => simp only [wp, g, g2]; rfl
    | some b =>
      cases g3 : parse13 b with
      | ok rest r =>
        have := openRecord_rx (env := env) h g'.1 g'.2 g2 g3
        simpa only [wp, g, g2, g3, if_true] using this
      | panic => simp only [wp, g, g2, g3, if_true]
      | error => simpa only [wp, g, g2, g3, if_true] using same
      | failure => simpa only [wp, g, g2, g3, if_true] using same
  · have g' := Bool.eq_false_iff.mpr g
    cases g3 : parse13 sl with
    | ok rest r => simp only [wp, g', g3, if_neg Bool.false_ne_true]; exact ⟨h.tail (.plain g3 g' hs), trivial⟩
    | panic => simp only [wp, g', g3, if_neg Bool.false_ne_true]
    | error => simpa only [wp, g', g3, if_neg Bool.false_ne_true] using same
    | failure => simpa only [wp, g', g3, if_neg Bool.false_ne_true] using same

theorem parseSlices_rx {c : Option (Nat × Nat)} (sls : List Bytes) (e : SplitEnd) (l : List Rx) {s : Eng}
    (hs : ∀ sl ∈ sls, split13 sl = ([sl], .done)) (h : RSteps env keys poll o (s, .busy c l)) :
    wp (parseSlices env sls e l) s
      (fun l' s' => RSteps env keys poll o (s', .busy c l') ∧ s'.closeSeq = s.closeSeq)
      (fun _ s' => RSteps env keys poll o (s', .idle)) := by
  induction sls generalizing l s with
  | nil =>
    cases e with
    | incomplete => exact h.tail .done
    | done => exact ⟨h, rfl⟩
    | discardRest => exact ⟨h, rfl⟩
  | cons sl rest ih =>
    unfold parseSlices
    rw [wp_bind]
    refine wp_mono (recordParse_rx h (hs sl (by simp))) ?_ ?_
    · intro x s1 ⟨h1, h2⟩
      have ih := @ih
      rw [← h2]
      cases x with
      | none =>
        rw [Option.toList_none, List.append_nil] at h1
        exact ih l (fun sl hx => hs sl (by simp [hx])) h1
      | some r =>
        dsimp only
        split
        · exact h1.tail .done
        · exact ih _ (fun sl hx => hs sl (by simp [hx])) h1
    · intro f s1 h1
      rw [h1]
      exact h.tail .done

/-- What holds of the close_notify while a datagram is classified. -/
def CloseFrom (c : Option (Nat × Nat)) (s : Eng) : Prop := ∀ x, c = some x → s.closeSeq = some x

theorem processAck_closeSeq (d) (s : Eng) : (processAck env d s).2.closeSeq = s.closeSeq :=
  congrArg RxPart.closeSeq (processAck_rp d s)

theorem classify_rx {s : Eng} {c : Option (Nat × Nat)} {l : List Rx} (h : RSteps env keys poll o (s, .busy c l)) {r : Rx}
    (hr : r ∈ l) (hc : CloseFrom c s) :
    wp (classify env r) s
      (fun x s' => RSteps env keys poll o (s', .busy c l) ∧ CloseFrom c s' ∧ ∀ r', x = some r' → r' = r ∧ Kept c r)
      (fun _ s' => RSteps env keys poll o (s', .idle)) := by
  have none_ : ∀ s' : Eng, RSteps env keys poll o (s', .busy c l) → CloseFrom c s' →
      RSteps env keys poll o (s', .busy c l) ∧ CloseFrom c s' ∧ ∀ r', (none : Option Rx) = some r' → r' = r ∧ Kept c r :=
    fun s' a b => ⟨a, b, fun _ e => nomatch e⟩
  by_cases g1 : afterClose s r = true
  · simp only [wp, classify, g1, if_true]; exact none_ s h hc
  have g1' := Bool.eq_false_iff.mpr g1
  by_cases g2 : r.rcd.epoch = 0 ∧ s.peerEnc ∧ (r.rcd.ctype = ctAck ∨ r.rcd.ctype = ctAlert)
  · simp only [wp, classify, g1', g2, and_self, if_true, if_neg Bool.false_ne_true]
    exact none_ s h hc
  by_cases g3 : r.rcd.ctype = ctAck
  · have e : classify env r s = M.bind (processAck env r.rcd.fragment) (fun _ => M.pure none) s := by
      unfold classify; rw [if_neg g1, if_neg g2, if_pos g3]
    show wp (classify env r) s _ _
    unfold wp
    rw [e]
    show wp (M.bind (processAck env r.rcd.fragment) (fun _ => M.pure none)) s _ _
    rw [wp_bind]
    have h1 := h.tail (.other (processAck_rp (env := env) r.rcd.fragment s))
    have h2 := processAck_closeSeq (env := env) r.rcd.fragment s
    refine wp_mono (to_wp (R := fun s' : Eng => RSteps env keys poll o (s', .busy c l) ∧ s'.closeSeq = s.closeSeq) ⟨h1, h2⟩) ?_ ?_
    · intro _ s1 g
      exact none_ s1 g.1 (fun x hx => g.2.trans (hc x hx))
    · intro _ s1 g
      exact g.1.tail .done
  by_cases g4 : r.rcd.ctype = ctAlert
  · have e : classify env r s = classifyAlert r s := by
      unfold classify; rw [if_neg g1, if_neg g2, if_neg g3, if_pos g4]
    unfold wp
    rw [e]
    unfold classifyAlert
    cases g5 : r.rcd.fragment[1]? with
    | none => exact none_ s h hc
    | some d =>
      dsimp only
      by_cases g6 : d = 0
      · simp only [g6, if_true]
        refine none_ _ (h.tail (.close hr g4 (fun g => g2 ⟨g.1, g.2, .inr g4⟩) g1' (g6 ▸ g5))) ?_
        intro x hx
        show some _ = some x
        rw [hc x hx, Option.getD_some]
      · simp only [g6, if_false]
        by_cases g7 : d = 90
        · simp only [g7, if_true]; exact none_ s h hc
        · simp only [g7, if_false]; exact h.tail .done
  have e : classify env r s = if r.rcd.ctype = ctCCS then (.ok none, s) else (.ok (some r), s) := by
    unfold classify; rw [if_neg g1, if_neg g2, if_neg g3, if_neg g4]
  unfold wp
  rw [e]
  by_cases g5 : r.rcd.ctype = ctCCS
  · rw [if_pos g5]; exact none_ s h hc
  · rw [if_neg g5]
    refine ⟨h, hc, ?_⟩
    intro r' hr'
    refine ⟨(Option.some.inj hr').symm, ?_, g3, g4, g5⟩
    intro x hx
    have := g1'
    unfold afterClose at this
    rw [hc x hx] at this
    exact this

theorem classifyAll_rx {c : Option (Nat × Nat)} (l acc : List Rx) {s : Eng}
    (h : RSteps env keys poll o (s, .busy c (acc ++ l))) (hc : CloseFrom c s) (ha : ∀ r ∈ acc, Kept c r) :
    wp (classifyAll env l acc) s
      (fun l' s' => RSteps env keys poll o (s', .busy c l') ∧ ∀ r ∈ l', Kept c r)
      (fun _ s' => RSteps env keys poll o (s', .idle)) := by
  induction l generalizing acc s with
  | nil => rw [List.append_nil] at h; exact ⟨h, ha⟩
  | cons r rest ih =>
    unfold classifyAll
    rw [wp_bind]
    refine wp_mono (classify_rx (env := env) h (r := r) (by simp) hc) ?_ (fun _ _ h => h)
    intro x s1 ⟨h1, h2, h3⟩
    cases x with
    | none =>
      refine ih acc (h1.tail (.drop ?_)) h2 ha
      exact List.Sublist.append_left (List.sublist_cons_self r rest) acc
    | some r' =>
      obtain ⟨h4, h5⟩ := h3 r' rfl
      subst h4
      refine ih _ ?_ h2 ?_
      · rw [List.append_assoc]; exact h1
      · intro y hy
        rcases List.mem_append.mp hy with hy | hy
        · exact ha y hy
        · rw [List.mem_singleton.mp hy]; exact h5

theorem recordsParse_rx (p : Bytes) {s : Eng} (h : RSteps env keys poll o (s, .idle)) :
    wp (recordsParse env p) s
      (fun l' s' => RSteps env keys poll o (s', .busy s.closeSeq l') ∧ ∀ r ∈ l', Kept s.closeSeq r)
      (fun _ s' => RSteps env keys poll o (s', .idle)) := by
  unfold recordsParse
  rw [wp_bind]
  refine wp_mono (parseSlices_rx (env := env) _ _ _ (fun sl hs => split13_self hs) (h.tail .arrive)) ?_ (fun _ _ h => h)
  intro l s1 ⟨h1, h2⟩
  exact classifyAll_rx l [] h1 (fun x hx => h2.trans hx) (fun _ hr => nomatch hr)

theorem insertHs_rx {c : Option (Nat × Nat)} {l : List Rx} {s : Eng} (h : RSteps env keys poll o (s, .busy c l))
    (hn : l ≠ []) (hl : s.rx.length < s.cfg.maxRx) (ho : HsOk s l) (hk : ∀ r ∈ l, Kept c r) :
    RSteps env keys poll o ((insertHs env l s).2, .idle) := by
  unfold insertHs
  dsimp only
  split
  · exact (h.tail (.insert _ hn hl ho hk)).tail (.other rfl)
  · split
    · exact (h.tail .done).tail (.other rfl)
    · rename_i ex he
      split
      · rename_i hr
        exact (h.tail (.replace hn he hr hl ho hk)).tail (.other rfl)
      · exact (h.tail .done).tail (.other rfl)

theorem insertBySeq_rx {c : Option (Nat × Nat)} {l : List Rx} {s : Eng} (h : RSteps env keys poll o (s, .busy c l))
    (hn : l ≠ []) (hl : s.rx.length < s.cfg.maxRx) (ho : HsOk s l) (hk : ∀ r ∈ l, Kept c r) :
    RSteps env keys poll o ((insertBySeq env l s).2, .idle) := by
  unfold insertBySeq
  dsimp only
  split
  · exact (h.tail (.insert _ hn hl ho hk)).tail (.other rfl)
  · exact (h.tail .done).tail (.other rfl)

theorem maybeResend_rp (l) (s : Eng) : (maybeResend env l s).2.rp = s.rp := by
  unfold maybeResend
  split
  · split
    · exact flightResend_rp s
    · rfl
  · rfl

theorem insertIncoming_rx {c : Option (Nat × Nat)} {l : List Rx} {s : Eng} (h : RSteps env keys poll o (s, .busy c l))
    (hk : ∀ r ∈ l, Kept c r) : RSteps env keys poll o ((insertIncoming env l s).2, .idle) := by
  unfold insertIncoming
  split
  · exact h.tail .done
  · rename_i hl
    split
    · exact h.tail .done
    · rename_i r rest
      split
      · rename_i hd tl hh
        have h1 := maybeResend_rp (env := env) (r :: rest) s
        rw [bind_snd]
        generalize maybeResend env (r :: rest) s = t at h1
        have h2 := h.tail (.other h1)
        split
        · unfold insertHandshakeTail
          split
          · exact h2.tail .done
          · split
            · exact h2.tail .done
            · rename_i g1 g2
              refine insertHs_rx h2 (by simp) ?_ ?_ hk
              · have e1 : t.2.rx = s.rx := congrArg RxPart.rx h1
                have e2 : t.2.cfg = s.cfg := congrArg RxPart.cfg h1
                rw [e1, e2]; omega
              · intro x hx
                have : x = hd := by
                  simp [firstHs, hh] at hx
                  exact hx.symm
                subst this
                refine ⟨by omega, fun hr => ?_⟩
                by_cases g3 : x.header.msgType = mtKeyUpdate
                · exact g3
                · exact absurd ⟨hr, g3⟩ g2
        · exact h2.tail .done
      · rename_i hh
        refine insertBySeq_rx h (by simp) (by omega) ?_ hk
        intro x hx
        simp [firstHs, hh] at hx

theorem parsePacket_rx (p : Bytes) (s : Eng) : RMove env keys poll s (parsePacket env p s).2 := by
  unfold parsePacket
  refine of_wp (fun s' : Eng => RMove env keys poll s s') ?_
  rw [wp_bind]
  refine wp_mono (recordsParse_rx (env := env) (o := (s, .idle)) p .refl) ?_ (fun _ _ h => h)
  intro l s1 ⟨h1, h2⟩
  split
  · exact h1.tail .done
  · exact to_wp (R := fun s' : Eng => RMove env keys poll s s') (insertIncoming_rx h1 h2)

theorem reparse_rx (l : List Bytes) (s : Eng) : RMove env keys poll s (reparse env l s).2 := by
  induction l generalizing s with
  | nil => exact .refl s
  | cons b rest ih =>
    unfold reparse
    rw [bind_snd]
    split
    · exact (parsePacket_rx b s).trans (ih _)
    · exact parsePacket_rx b s

/-- Turning on the peer's encryption: entries from the first encrypted one on are parsed again. -/
theorem enablePeerEncryption_split (env : Env) (keys poll : Bool) (s : Eng) :
    ∃ i, (∀ x ∈ (s.rx.take i).flatten, x.rcd.epoch < 2) ∧
      RMove env keys poll { s with peerEnc := true, rx := s.rx.take i } (enablePeerEncryption env s).2 := by
  unfold enablePeerEncryption
  dsimp only
  split
  · rename_i hf
    have h := List.findIdx?_eq_none_iff.mp hf
    refine ⟨s.rx.length, ?_, ?_⟩
    · rw [List.take_length]
      intro x hx
      obtain ⟨i, hi, hx⟩ := List.mem_flatten.mp hx
      have := h i hi
      simp at this
      exact this x hx
    · rw [List.take_length]; exact .refl _
  · rename_i i hf
    refine ⟨i, ?_, reparse_rx _ _⟩
    intro x hx
    obtain ⟨it, hi, hx⟩ := List.mem_flatten.mp hx
    obtain ⟨j, hj, he⟩ := List.getElem_of_mem hi
    rw [List.length_take] at hj
    obtain ⟨h1, _, h3⟩ := List.findIdx?_eq_some_iff_getElem.mp hf
    have := h3 j (by omega)
    rw [List.getElem_take] at he
    rw [he] at this
    simp at this
    exact this x hx

theorem enablePeerEncryption_rx (s : Eng) : RMove env true false s (enablePeerEncryption env s).2 := by
  obtain ⟨i, h1, h2⟩ := enablePeerEncryption_split env true false s
  exact .trans (.one (.enable i rfl rfl h1)) h2

theorem nextHandshakeWith_rx (a i t) (s : Eng) : RMove env keys poll s (nextHandshakeWith env a i t s).2 := by
  unfold nextHandshakeWith
  by_cases g1 : hasComplete s t = true
  · simp only [g1, Bool.not_true, if_neg Bool.false_ne_true]
    split
    · exact .refl s
    · rename_i first rest hv
      unfold defragment
      dsimp only
      split
      · exact .refl s
      · split
        · exact .refl s
        · rename_i g2 g3
          have ht : Takes s t first rest := ⟨g1, hv, by omega, by simpa using g3⟩
          split
          · exact .one (.marked ht)
          · split
            · exact .one (.marked ht)
            · exact (RMove.one (.taken ht)).trans (.other rfl)
  · rw [Bool.eq_false_iff.mpr g1]; exact .refl s

theorem advancePeerSeq_rx (s : Eng) : RMove env keys poll s (advancePeerSeq s).2 := by
  unfold advancePeerSeq
  split
  · exact .refl s
  · exact .one (.accepted (by omega))

theorem pollRest_rx (b n : Nat) (s : Eng) : RMove env keys true s (pollRest b n s).2 := by
  unfold pollRest
  dsimp only
  refine RMove.trans (.other (scheduleAck_rp n s)) ?_
  split
  · split
    · exact .refl _
    · exact .other rfl
  · split
    · rename_i g
      rw [Bool.and_eq_true] at g
      exact .one (.reported rfl g.1 (by simpa using g.2))
    · exact .refl _

theorem pollOutput_rx (b n : Nat) (s : Eng) : RMove env keys true s (pollOutput b n s).2 := by
  unfold pollOutput
  dsimp only
  refine RMove.trans (.one (.purge rfl)) ?_
  split
  · rename_i hr
    split
    · rename_i r hn
      split
      · exact .refl _
      · exact .one (.deliver rfl hr hn)
    · exact pollRest_rx ..
  · exact pollRest_rx ..

theorem installHandshakeKeys_rx (a b : Bytes) (s : Eng) : RMove env true poll s (installHandshakeKeys env a b s).2 := by
  unfold installHandshakeKeys
  refine of_wp (fun s' : Eng => RMove env true poll s s') ?_
  rw [wp_bind, wp_get, wp_bind]
  refine wp_mono (to_wp (R := fun s' : Eng => s' = s) (deriveEpochKeys_rp ..)) ?_ (fun _ s' h => h ▸ .refl _)
  intro k s1 h1
  subst h1
  rw [wp_bind, wp_modify, wp_bind]
  refine wp_deriveEpochKeys ?_ (.other rfl) (.other rfl)
  intro suite k2 hs2 h2
  rw [wp_modify]
  exact (RMove.one (.hsRecv rfl h2)).trans (.other rfl)

theorem installApplicationKeys_rx (a b : Bytes) (s : Eng) : RMove env true poll s (installApplicationKeys env a b s).2 := by
  unfold installApplicationKeys
  refine of_wp (fun s' : Eng => RMove env true poll s s') ?_
  rw [wp_bind, wp_get, wp_bind]
  refine wp_mono (to_wp (R := fun s' : Eng => s' = s) (deriveEpochKeys_rp ..)) ?_ (fun _ s' h => h ▸ .refl _)
  intro k s1 h1
  subst h1
  rw [wp_bind, wp_modify, wp_bind]
  refine wp_deriveEpochKeys ?_ (.other rfl) (.other rfl)
  intro suite k2 hs2 h2
  rw [wp_bind, wp_get]
  split
  · exact .other rfl
  · rename_i g
    rw [wp_modify]
    exact (RMove.one (.appRecv rfl h2 (by simpa using g))).trans (.other rfl)

theorem updateRecvKeys_rx (s : Eng) : RMove env keys poll s (updateRecvKeys env s).2 := by
  unfold updateRecvKeys
  split
  · exact .refl s
  · rename_i latest hl
    refine of_wp (fun s' : Eng => RMove env keys poll s s') ?_
    rw [wp_bind]
    refine wp_deriveNextSecret ?_ (.refl s) (.refl s)
    intro suite secret hs hn
    split
    · exact .refl s
    · rename_i g
      rw [wp_bind]
      refine wp_deriveEpochKeys ?_ (.refl s) (.refl s)
      intro suite' k hs' hk
      have : suite' = suite := Option.some.inj (hs'.symm.trans hs)
      subst this
      exact .one (.newRecv hl (by omega) hs hn hk)

/-! ## Whole sessions -/

theorem rx_frame (env : Env) (keys : Bool) : Frame env (RMove env keys false) where
  refl := .refl
  trans _ _ _ := .trans
  handshake e t b := .other (createHandshake_rp t b e)
  next e a i t := nextHandshakeWith_rx a i t e
  advance := advancePeerSeq_rx
  flightBegin _ := .other rfl
  flightStop _ _ := .other rfl
  tick _ := .other rfl
  suite _ cs h := .one (.suite cs h)
  exporter _ _ := .other rfl
  rollback _ _ := .other rfl
  replace e n := .other (replaceTranscript_rp n e)
  ackFinal e := .other (sendAckRetransmittable_rp e)

theorem rx_keyFrame (env : Env) : KeyFrame env (RMove env true false) where
  hsKeys e a b := installHandshakeKeys_rx a b e
  appKeys e a b := installApplicationKeys_rx a b e
  enablePeer := enablePeerEncryption_rx
  retry _ := .one (.retry rfl)
  release _ := .one (.release rfl rfl)
  retain _ := .one (.retain rfl rfl)

theorem rx_appFrame (env : Env) (keys poll : Bool) : AppFrame env (fun _ => True) (RMove env keys poll) where
  data _ _ _ := .other (createCipher_rp ..)
  asked _ := .other rfl
  keyUpdate e := .other (createKeyUpdate_rp _ e)
  auto e _ _ := .other (createKeyUpdate_rp true { e with needsKu := false })
  newRecv := updateRecvKeys_rx
  ack e := .other (sendAckInner_rp _ e)

theorem rx_apiFrame (env : Env) (keys poll : Bool) : ApiFrame env (RMove env keys poll) where
  packet e p := parsePacket_rx p e
  timeout e n := .other (handleTimeout_rp n e)
  alert _ := .other (createCipher_rp ..)
  cancel _ := .other rfl
  abort _ := .other rfl

end steps

/-- Nothing happens after a panic. -/
def Stops (r : E12.Ret) : Prop := r = .res .panic ∨ r = .res .diverge ∨ r = .out .panic

instance (r : E12.Ret) : Decidable (Stops r) := by unfold Stops; infer_instance

theorem run_snd {R : Role} (env : PEnv) (s : Ses R.St) (c : Call) (cs : List Call) :
    (run R env s (c :: cs)).2 =
      if Stops (call R env s c).1 then (call R env s c).2 else (run R env (call R env s c).2 cs).2 := by
  conv => lhs; unfold run
  dsimp only
  by_cases h : Stops (call R env s c).1
  · rw [if_pos h]; exact congrArg Prod.snd (if_pos h)
  · rw [if_neg h]
    split
    · rename_i hh; exact absurd hh h
    · rfl

/-- A session only makes small steps. `J` holds before every poll. -/
theorem Start.rxJ {env : PEnv} {cfg : Cfg} {R : Role} {s0 : Ses R.St} (h : Start env cfg R s0)
    {J : Eng → Prop} {P : Eng → Hand → Prop}
    (hj : ∀ cs, J (run R env s0 cs).2.eng)
    (hk : ∀ (s s' : Eng) (a a' : Hand), RStep env.toEnv true false (s, a) (s', a') → P s a → P s' a')
    (hp : ∀ (s s' : Eng) (a a' : Hand), RStep env.toEnv true true (s, a) (s', a') → J s → P s a → J s' ∧ P s' a')
    (h0 : P s0.eng .idle) (cs : List Call) : P (run R env s0 cs).2.eng .idle := by
  obtain ⟨keying, hr⟩ := h.roleOk
  have one : ∀ (s : Ses R.St) (c : Call), J s.eng → P s.eng .idle → P (call R env s c).2.eng .idle := by
    intro s c hs h1
    by_cases hc : ∃ n, c = .poll n
    · obtain ⟨n, rfl⟩ := hc
      show P (pollM R n s).2.eng .idle
      unfold pollM
      split
      · exact h1
      · exact (RSteps.keeps (P := fun s a => J s ∧ P s a) (fun s s' a a' g hh => hp s s' a a' g hh.1 hh.2)
          (pollOutput_rx (env := env.toEnv) (keys := true) n _ s.eng) ⟨hs, h1⟩).2
    · have g := (call_afr (ok := fun _ => True) hr (rx_frame env.toEnv true) (rx_keyFrame _)
        (rx_appFrame _ _ _) (rx_apiFrame _ _ _) s (fun _ _ => trivial) c
        (fun n hn => absurd ⟨n, hn⟩ hc) (fun _ _ => trivial)).1
      exact RSteps.keeps (P := P) hk g h1
  have main : ∀ (cs : List Call) (s : Ses R.St), (∀ cs', J (run R env s cs').2.eng) → P s.eng .idle →
      P (run R env s cs).2.eng .idle := by
    intro cs
    induction cs with
    | nil => exact fun s _ h1 => h1
    | cons c cs ih =>
      intro s hs h1
      have h2 := one s c (hs []) h1
      rw [run_snd]
      split
      · exact h2
      · rename_i hb
        refine ih _ (fun cs' => ?_) h2
        have := hs (c :: cs')
        rwa [run_snd, if_neg hb] at this
  exact main cs s0 hj h0

/-- The receive side of a new session. -/
theorem Start.rp0 {env : PEnv} {cfg : Cfg} {R : Role} {s0 : Ses R.St} (h : Start env cfg R s0) :
    s0.eng.rp = (Eng.new env.toEnv cfg true).rp := by
  cases h <;> rfl

/-- An invariant of the receive side holds throughout. -/
theorem Start.rx {env : PEnv} {cfg : Cfg} {R : Role} {s0 : Ses R.St} (h : Start env cfg R s0) {P : Eng → Hand → Prop}
    (hk : ∀ (poll : Bool) (s s' : Eng) (a a' : Hand), RStep env.toEnv true poll (s, a) (s', a') → P s a → P s' a')
    (h0 : P s0.eng .idle) (cs : List Call) : P (run R env s0 cs).2.eng .idle :=
  h.rxJ (J := fun _ => True) (fun _ => trivial) (hk false) (fun s s' a a' g _ hh => ⟨trivial, hk true s s' a a' g hh⟩)
    h0 cs

end Verif.E13

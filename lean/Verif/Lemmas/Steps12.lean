import Verif.Lemmas.Engine12
/-!
# Steps of the DTLS 1.2 engine

`Step` has one constructor per way a session changes its engine. The session lemmas show that every
API call is a sequence of steps, so an invariant of `Step` holds in every execution.
-/
namespace Verif.E12
open Verif Wire Window Timer Aead M

/-- Reflexive transitive closure. -/
inductive Star {α : Type} (R : α → α → Prop) : α → α → Prop
  | refl (a : α) : Star R a a
  | tail {a b c : α} : Star R a b → R b c → Star R a c

namespace Star
variable {α : Type} {R : α → α → Prop}

theorem one {a b : α} (h : R a b) : Star R a b := .tail (.refl a) h

theorem trans {a b c : α} (h : Star R a b) (g : Star R b c) : Star R a c := by
  induction g with
  | refl => exact h
  | tail _ hr ih => exact .tail ih hr

theorem invariant {I : α → Prop} (hI : ∀ a b, R a b → I a → I b) {a b : α} (h : Star R a b)
    (ha : I a) : I b := by
  induction h with
  | refl => exact ha
  | tail _ hr ih => exact hI _ _ hr ih

theorem mono {S : α → α → Prop} (hS : ∀ a b, R a b → Star S a b) {a b : α} (h : Star R a b) :
    Star S a b := by
  induction h with
  | refl => exact .refl _
  | tail _ hr ih => exact ih.trans (hS _ _ hr)

end Star

/-- The ways a session changes its engine other than setting suite and keys. `ok` holds of the
fragments passed to `create_record` directly (application data, alerts and change_cipher_spec). -/
inductive Core (env : Env) (ok : Bytes → Prop) : Eng → Eng → Prop
  | packet (s : Eng) (p : Bytes) : Core env ok s (parsePacket env p s).2
  | enablePeer (s : Eng) (hk : s.keys ≠ none) : Core env ok s (enablePeerEncryption env s).2
  | record (s : Eng) (c : UInt8) (e : Nat) (sv fo : Bool) (f : Bytes) (h : ok f)
      (hk : e ≥ 1 → s.keys ≠ none) :
      Core env ok s (createRecord env c e sv fo f s).2
  | handshake (s : Eng) (t : UInt8) (b : Bytes) (hk : msgEpoch t ≥ 1 → s.keys ≠ none) :
      Core env ok s (createHandshake env t b s).2
  | timeout (s : Eng) (now : Nat) : Core env ok s (handleTimeout env now s).2
  | flightBegin (s : Eng) : Core env ok s (flightBegin env s)
  | flightStop (s : Eng) : Core env ok s (flightStop s)
  | abort (s : Eng) : Core env ok s (abort s)
  | release (s : Eng) : Core env ok s (releaseAppData s)
  | discard (s : Eng) : Core env ok s (discardPendingWrites s)
  | resetServer (s : Eng) : Core env ok s (resetServerForHvr s)
  | resetClient (s : Eng) : Core env ok s (resetClientForHvr s)
  | nextHandshake (s : Eng) (t : UInt8) : Core env ok s (nextHandshake env t s).2
  | nextRecord (s : Eng) (c : UInt8) : Core env ok s (nextRecord c s).2
  | dropCcs (s : Eng) : Core env ok s (dropPendingCcs s)
  | poll (s : Eng) (n now : Nat) : Core env ok s (pollOutput n now s).2
  | master (s : Eng) (m : Bytes) : Core env ok s { s with master := some m }
  | tick (s : Eng) : Core env ok s { s with tick := s.tick + 1 }

/-- The ways a session changes its engine. Keys are set once, and the suite only before them. -/
inductive Step (env : Env) (ok : Bytes → Prop) : Eng → Eng → Prop
  | core {s s' : Eng} (h : Core env ok s s') : Step env ok s s'
  | suite (s : Eng) (cs : Nat) (h : s.keys = none) : Step env ok s (setCipherSuite env cs s).2
  | keys (s : Eng) (k : Keys) (h : s.keys = none)
      (hs : ∃ cs m cr sr, s.suite = some cs ∧ env.deriveKeys cs m cr sr = some k) :
      Step env ok s { s with keys := some k }

abbrev Steps (env : Env) (ok : Bytes → Prop) := Star (Step env ok)

/-! ## The transmit side -/

/-- Events of the transmit side. -/
def Ev.isTx : Ev → Bool
  | .sealed .. => true
  | .queued .. => true
  | .sent .. => true
  | _ => false

/-- The transmit side is the same. -/
def TxSame (s s' : Eng) : Prop :=
  ∃ rx ms pe ps ns tr rp tm rl cf c1 c2 t es, s.tick ≤ t ∧ (∀ e ∈ es, Ev.isTx e = false) ∧
    s' = { s with rx := rx, master := ms, peerEnc := pe, peerSeq := ps, nextSeq := ns, transcript := tr,
                  replay := rp, timers := tm, release := rl, confirmed := cf, closeRecv := c1,
                  closeReported := c2, tick := t, log := es ++ s.log }

theorem TxSame.of {s : Eng} (rx : List (List Rx)) (ms : Option Bytes) (pe : Bool) (ps ns : Nat)
    (tr : Bytes) (rp : ReplayWindow) (tm : Timers) (rl cf c1 c2 : Bool) (t : Nat) (ht : s.tick ≤ t) :
    TxSame s { s with rx := rx, master := ms, peerEnc := pe, peerSeq := ps, nextSeq := ns,
                      transcript := tr, replay := rp, timers := tm, release := rl, confirmed := cf,
                      closeRecv := c1, closeReported := c2, tick := t } :=
  ⟨rx, ms, pe, ps, ns, tr, rp, tm, rl, cf, c1, c2, t, [], ht, by simp, rfl⟩

theorem TxSame.refl (s : Eng) : TxSame s s :=
  TxSame.of s.rx s.master s.peerEnc s.peerSeq s.nextSeq s.transcript s.replay s.timers s.release
    s.confirmed s.closeRecv s.closeReported s.tick (Nat.le_refl _)

theorem RecvFrame.txSame {s s' : Eng} (h : RecvFrame s s') : TxSame s s' := by
  obtain ⟨rp, cf, cr, es, he, rfl⟩ := h
  refine ⟨s.rx, s.master, s.peerEnc, s.peerSeq, s.nextSeq, s.transcript, rp, s.timers, s.release, cf,
    cr, s.closeReported, s.tick, es, Nat.le_refl _, ?_, rfl⟩
  intro e hm
  have := he e hm
  cases e <;> simp_all [Ev.isOpened, Ev.isTx]

/-- Primitive changes of the transmit side other than setting suite and keys. -/
inductive TPrim (env : Env) (ok : Bytes → Prop) : Eng → Eng → Prop
  | same {s s' : Eng} (h : TxSame s s') : TPrim env ok s s'
  | record (s : Eng) (c : UInt8) (e : Nat) (sv fo : Bool) (f : Bytes) (h : ok f)
      (hk : e ≥ 1 → s.keys ≠ none) :
      TPrim env ok s (createRecord env c e sv fo f s).2
  | fragment (s : Eng) (t : UInt8) (q : Nat) (b : Bytes) (off : Nat)
      (hs : msgEpoch t ≥ 1 → s.suite ≠ none) (hk : msgEpoch t ≥ 1 → s.keys ≠ none) :
      TPrim env ok s (createRecord env ctHandshake (msgEpoch t) true false
        (hsFragment t q b off (chunkLen s (s.overhead (msgEpoch t)) b.length off)) s).2
  | resend (s : Eng) : TPrim env ok s (flightResend env s).2
  | clear (s : Eng) : TPrim env ok s { s with tx := [] }
  | forget (s : Eng) : TPrim env ok s { s with saved := [] }
  | sent (s : Eng) (p : Bytes) (rest : List Bytes) (h : s.tx = p :: rest) :
      TPrim env ok s { s with tx := rest, log := .sent p :: s.log }

/-- Primitive changes of the transmit side. -/
inductive TStep (env : Env) (ok : Bytes → Prop) : Eng → Eng → Prop
  | prim {s s' : Eng} (h : TPrim env ok s s') : TStep env ok s s'
  | suite (s : Eng) (cs e m : Nat) (h : s.keys = none) (he : env.suiteParams cs = some (e, m)) :
      TStep env ok s { s with explicitLen := e, minProt := m, suite := some cs }
  | keys (s : Eng) (k : Keys) (h : s.keys = none) : TStep env ok s { s with keys := some k }

theorem createRecord_keep (env : Env) (c : UInt8) (e : Nat) (sv fo : Bool) (f : Bytes) (s : Eng) :
    (createRecord env c e sv fo f s).2.suite = s.suite ∧
    (createRecord env c e sv fo f s).2.minProt = s.minProt ∧
    (createRecord env c e sv fo f s).2.keys = s.keys := by
  obtain ⟨_, _, _, _, _, _, _, h⟩ := createRecord_frame env c e sv fo f s
  rw [h]
  exact ⟨rfl, rfl, rfl⟩

theorem fragmentLoop_prims (env : Env) (ok : Bytes → Prop) (t : UInt8) (q : Nat) (b : Bytes)
    (p fuel off : Nat) (s : Eng) (hp : p = s.overhead (msgEpoch t))
    (hs : msgEpoch t ≥ 1 → s.suite ≠ none) (hk : msgEpoch t ≥ 1 → s.keys ≠ none) :
    Star (TPrim env ok) s (fragmentLoop env t q b p fuel off s).2 := by
  induction fuel generalizing off s with
  | zero => exact .refl s
  | succ n ih =>
    unfold fragmentLoop
    dsimp only
    have h : Star (TPrim env ok) s _ := .one (.fragment s t q b off hs hk)
    rw [← hp] at h
    have hc := createRecord_keep env ctHandshake (msgEpoch t) true false
      (hsFragment t q b off (chunkLen s p b.length off)) s
    split
    · rw [bind_snd]
      split
      · refine h.trans ?_
        split
        · exact .refl _
        · refine ih _ _ ?_ ?_ ?_
          · simp only [Eng.overhead, hc.2.1]; exact hp
          · rw [hc.1]; exact hs
          · rw [hc.2.2]; exact hk
      · exact h
    · exact .refl s

theorem createHandshake_prims (env : Env) (ok : Bytes → Prop) (t : UInt8) (b : Bytes) (s : Eng)
    (hk : msgEpoch t ≥ 1 → s.keys ≠ none) :
    Star (TPrim env ok) s (createHandshake env t b s).2 := by
  have hsame : ∀ tr ns, TPrim env ok s { s with transcript := tr, nextSeq := ns } := fun tr ns =>
    .same (TxSame.of s.rx s.master s.peerEnc s.peerSeq ns tr s.replay s.timers s.release s.confirmed
      s.closeRecv s.closeReported s.tick (Nat.le_refl _))
  unfold createHandshake
  dsimp only
  split
  · exact .one (hsame _ _)
  · split
    · exact .one (hsame _ _)
    · rename_i hn
      refine Star.trans (.one (hsame _ _)) (fragmentLoop_prims env ok t _ b _ _ 0 _ ?_ ?_ hk)
      · rfl
      · intro h1 h2
        exact hn ⟨h1, h2⟩

theorem insertHandshakeTail_same (env : Env) (rs : List Rx) (h : Hs) (e : Nat) (s : Eng) :
    TxSame s (insertHandshakeTail env rs h e s).2 := by
  have hs : ∀ rx t, s.tick ≤ t → TxSame s { s with rx := rx, tick := t } := fun rx t ht =>
    TxSame.of rx s.master s.peerEnc s.peerSeq s.nextSeq s.transcript s.replay s.timers s.release
      s.confirmed s.closeRecv s.closeReported t ht
  unfold insertHandshakeTail insertHs
  dsimp only
  repeat' split
  all_goals first
    | exact TxSame.refl s
    | exact hs _ _ (Nat.le_succ _)

theorem insertNonHandshake_same (env : Env) (r : Rx) (rs : List Rx) (s : Eng) :
    TxSame s (insertNonHandshake env r rs s).2 := by
  have hs : ∀ rx t, s.tick ≤ t → TxSame s { s with rx := rx, tick := t } := fun rx t ht =>
    TxSame.of rx s.master s.peerEnc s.peerSeq s.nextSeq s.transcript s.replay s.timers s.release
      s.confirmed s.closeRecv s.closeReported t ht
  unfold insertNonHandshake insertBySeq
  dsimp only
  repeat' split
  all_goals first
    | exact TxSame.refl s
    | exact hs _ _ (Nat.le_succ _)

theorem maybeResend_prims (env : Env) (ok : Bytes → Prop) (rs : List Rx) (s : Eng) :
    Star (TPrim env ok) s (maybeResend env rs s).2 := by
  unfold maybeResend
  repeat' split
  all_goals first
    | exact .one (.resend s)
    | exact .refl s

theorem insertIncoming_prims (env : Env) (ok : Bytes → Prop) (rs : List Rx) (s : Eng) :
    Star (TPrim env ok) s (insertIncoming env rs s).2 := by
  unfold insertIncoming
  split
  · exact .refl s
  split
  · exact .refl s
  split
  · rw [bind_snd]
    have h := maybeResend_prims env ok ‹_› s
    split
    · exact (maybeResend_prims env ok _ s).trans (.one (.same (insertHandshakeTail_same ..)))
    · exact maybeResend_prims env ok _ s
  · exact .one (.same (insertNonHandshake_same ..))

theorem parsePacket_prims (env : Env) (ok : Bytes → Prop) (p : Bytes) (s : Eng) :
    Star (TPrim env ok) s (parsePacket env p s).2 := by
  unfold parsePacket
  rw [bind_snd]
  have h : Star (TPrim env ok) s _ := .one (.same (recordsParse_frame env p s).txSame)
  split
  · split
    · exact h
    · exact h.trans (insertIncoming_prims ..)
  · exact h

theorem reparse_prims (env : Env) (ok : Bytes → Prop) (l : List Bytes) (s : Eng) :
    Star (TPrim env ok) s (reparse env l s).2 := by
  induction l generalizing s with
  | nil => exact .refl s
  | cons b rest ih =>
    unfold reparse
    rw [bind_snd]
    have h := parsePacket_prims env ok b s
    split
    · exact h.trans (ih _)
    · exact h

theorem defragment_same (env : Env) (first : Hs) (rest : List Hs) (s : Eng) :
    TxSame s (defragment env first rest s).2 := by
  have hs : ∀ rx tr, TxSame s { s with rx := rx, transcript := tr } := fun rx tr =>
    TxSame.of rx s.master s.peerEnc s.peerSeq s.nextSeq tr s.replay s.timers s.release
      s.confirmed s.closeRecv s.closeReported s.tick (Nat.le_refl _)
  unfold defragment
  dsimp only
  split; · exact TxSame.refl s
  split; · exact TxSame.refl s
  split
  · exact hs _ _
  split
  · exact hs _ _
  split
  · exact hs _ _
  · exact ⟨_, s.master, s.peerEnc, _, s.nextSeq, _, s.replay, s.timers, s.release, s.confirmed,
      s.closeRecv, s.closeReported, s.tick, [_], Nat.le_refl _, by simp [Ev.isTx], rfl⟩

theorem Core.prims {env : Env} {ok : Bytes → Prop} {s s' : Eng} (h : Core env ok s s') :
    Star (TPrim env ok) s s' := by
  have hs : ∀ (s : Eng) rx ms pe ps ns tr rp tm rl cf c1 c2 t, s.tick ≤ t → TPrim env ok s
      { s with rx := rx, master := ms, peerEnc := pe, peerSeq := ps, nextSeq := ns,
               transcript := tr, replay := rp, timers := tm, release := rl, confirmed := cf,
               closeRecv := c1, closeReported := c2, tick := t } :=
    fun s rx ms pe ps ns tr rp tm rl cf c1 c2 t ht => .same (.of rx ms pe ps ns tr rp tm rl cf c1 c2 t ht)
  cases h with
  | packet p => exact parsePacket_prims ..
  | enablePeer =>
    unfold enablePeerEncryption
    dsimp only
    split
    · exact .one (hs s s.rx s.master true s.peerSeq s.nextSeq s.transcript s.replay s.timers s.release
        s.confirmed s.closeRecv s.closeReported s.tick (Nat.le_refl _))
    · exact Star.trans (.one (hs s _ s.master true s.peerSeq s.nextSeq s.transcript s.replay s.timers
        s.release s.confirmed s.closeRecv s.closeReported s.tick (Nat.le_refl _))) (reparse_prims ..)
  | record c e sv fo f h hk => exact .one (.record s c e sv fo f h hk)
  | handshake t b hk => exact createHandshake_prims env ok t b s hk
  | timeout now =>
    unfold handleTimeout
    dsimp only
    have h1 : ∀ tm, Star (TPrim env ok) s { s with timers := tm, tick := s.tick + 1 } := fun tm =>
      .one (hs s s.rx s.master s.peerEnc s.peerSeq s.nextSeq s.transcript s.replay tm s.release
        s.confirmed s.closeRecv s.closeReported _ (Nat.le_succ _))
    split
    · exact h1 _
    · exact h1 _
    · exact (h1 _).trans (.one (.resend _))
    · exact h1 _
  | flightBegin =>
    exact Star.trans (.one (.forget s)) (.one (hs { s with saved := [] } s.rx s.master s.peerEnc
      s.peerSeq s.nextSeq s.transcript s.replay _ s.release s.confirmed s.closeRecv s.closeReported _
      (Nat.le_succ _)))
  | flightStop =>
    exact .one (hs s s.rx s.master s.peerEnc s.peerSeq s.nextSeq s.transcript s.replay _ s.release
      _ s.closeRecv s.closeReported s.tick (Nat.le_refl _))
  | abort =>
    refine Star.trans (.one (.forget s)) (Star.trans (.one (.clear _)) (.one ?_))
    exact hs { s with saved := [], tx := [] } s.rx s.master s.peerEnc
      s.peerSeq s.nextSeq s.transcript s.replay _ s.release s.confirmed s.closeRecv s.closeReported
      s.tick (Nat.le_refl _)
  | release =>
    exact .one (hs s s.rx s.master s.peerEnc s.peerSeq s.nextSeq s.transcript s.replay s.timers true
      s.confirmed s.closeRecv s.closeReported s.tick (Nat.le_refl _))
  | discard => exact .one (.clear s)
  | resetServer =>
    exact .one (hs s [] s.master s.peerEnc s.peerSeq s.nextSeq [] s.replay s.timers s.release
      s.confirmed s.closeRecv s.closeReported s.tick (Nat.le_refl _))
  | resetClient =>
    exact .one (hs s s.rx s.master s.peerEnc s.peerSeq s.nextSeq [] s.replay s.timers s.release
      s.confirmed s.closeRecv s.closeReported s.tick (Nat.le_refl _))
  | nextHandshake t =>
    unfold E12.nextHandshake
    split
    · exact .refl s
    split
    · exact .refl s
    · exact .one (.same (defragment_same ..))
  | nextRecord c =>
    unfold E12.nextRecord
    repeat' split
    all_goals first
      | exact .refl s
      | exact .one (hs s _ s.master s.peerEnc s.peerSeq s.nextSeq s.transcript s.replay s.timers
          s.release s.confirmed s.closeRecv s.closeReported s.tick (Nat.le_refl _))
  | dropCcs =>
    exact .one (hs s _ s.master s.peerEnc s.peerSeq s.nextSeq s.transcript s.replay s.timers s.release
      s.confirmed s.closeRecv s.closeReported s.tick (Nat.le_refl _))
  | poll n now =>
    have hp : TPrim env ok s (purge s) :=
      hs s _ s.master s.peerEnc s.peerSeq s.nextSeq s.transcript s.replay s.timers s.release
        s.confirmed s.closeRecv s.closeReported s.tick (Nat.le_refl _)
    have hr : Star (TPrim env ok) s (pollRest n now (purge s)).2 := by
      refine Star.trans (.one hp) ?_
      generalize purge s = u
      unfold pollRest
      split
      · split
        · exact .refl u
        · exact .one (.sent u _ _ ‹_›)
      · split
        · exact .one (hs u u.rx u.master u.peerEnc u.peerSeq u.nextSeq u.transcript u.replay u.timers
            u.release u.confirmed u.closeRecv true u.tick (Nat.le_refl _))
        · exact .refl u
    unfold pollOutput
    dsimp only
    split
    · split
      · split
        · exact .one hp
        · refine Star.trans (.one hp) (.one ?_)
          generalize purge s = u
          exact .same ⟨_, u.master, u.peerEnc, u.peerSeq, u.nextSeq, u.transcript, u.replay, u.timers,
            u.release, u.confirmed, u.closeRecv, u.closeReported, u.tick, [_], Nat.le_refl _,
            by simp [Ev.isTx], rfl⟩
      · exact hr
    · exact hr
  | master m =>
    exact .one (hs s s.rx _ s.peerEnc s.peerSeq s.nextSeq s.transcript s.replay s.timers s.release
      s.confirmed s.closeRecv s.closeReported s.tick (Nat.le_refl _))
  | tick =>
    exact .one (hs s s.rx s.master s.peerEnc s.peerSeq s.nextSeq s.transcript s.replay s.timers
      s.release s.confirmed s.closeRecv s.closeReported _ (Nat.le_succ _))

/-- Every step is a sequence of primitive transmit steps. -/
theorem Step.prims {env : Env} {ok : Bytes → Prop} {s s' : Eng} (h : Step env ok s s') :
    Star (TStep env ok) s s' := by
  cases h with
  | core h => exact h.prims.mono fun _ _ h => .one (.prim h)
  | suite cs h =>
    unfold setCipherSuite
    split
    · exact .refl s
    · exact .one (.suite s _ _ _ h ‹_›)
  | keys k h _ => exact .one (.keys s k h)

theorem Steps.prims {env : Env} {ok : Bytes → Prop} {s s' : Eng} (h : Steps env ok s s') :
    Star (TStep env ok) s s' := Star.mono (fun _ _ => Step.prims) h

/-- What only suite and key installation change. -/
structure Keep (s s' : Eng) : Prop where
  cfg : s'.cfg = s.cfg
  isClient : s'.isClient = s.isClient
  suite : s'.suite = s.suite
  explicitLen : s'.explicitLen = s.explicitLen
  minProt : s'.minProt = s.minProt
  keys : s'.keys = s.keys

theorem Keep.refl (s : Eng) : Keep s s := ⟨rfl, rfl, rfl, rfl, rfl, rfl⟩

theorem Keep.trans {a b c : Eng} (h : Keep a b) (g : Keep b c) : Keep a c :=
  ⟨g.cfg.trans h.cfg, g.isClient.trans h.isClient, g.suite.trans h.suite,
    g.explicitLen.trans h.explicitLen, g.minProt.trans h.minProt, g.keys.trans h.keys⟩

theorem SendFrame.keep {s s' : Eng} (h : SendFrame s s') : Keep s s' := by
  obtain ⟨_, _, _, _, _, _, _, rfl⟩ := h
  exact ⟨rfl, rfl, rfl, rfl, rfl, rfl⟩

theorem TPrim.keep {env : Env} {ok : Bytes → Prop} {s s' : Eng} (h : TPrim env ok s s') : Keep s s' := by
  cases h with
  | same h =>
    obtain ⟨_, _, _, _, _, _, _, _, _, _, _, _, _, _, _, _, rfl⟩ := h
    exact ⟨rfl, rfl, rfl, rfl, rfl, rfl⟩
  | record c e sv fo f h hk => exact (createRecord_frame ..).keep
  | fragment t q b off hs hk => exact (createRecord_frame ..).keep
  | resend => exact (flightResend_frame ..).keep
  | clear => exact ⟨rfl, rfl, rfl, rfl, rfl, rfl⟩
  | forget => exact ⟨rfl, rfl, rfl, rfl, rfl, rfl⟩
  | sent p rest h => exact ⟨rfl, rfl, rfl, rfl, rfl, rfl⟩

theorem Core.keep {env : Env} {ok : Bytes → Prop} {s s' : Eng} (h : Core env ok s s') : Keep s s' := by
  have hp := h.prims
  clear h
  induction hp with
  | refl => exact .refl _
  | tail _ hr ih => exact ih.trans hr.keep

end Verif.E12

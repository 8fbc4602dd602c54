import Verif.Lemmas.Safe13
import Verif.Lemmas.Order13
import Verif.Lemmas.Role13
import Verif.Lemmas.Saga13
import Verif.Props.Recv12
import Verif.Props.Recv13
/-!
# A connected DTLS 1.3 endpoint does not panic (C22)

The counters of the protocol are `u16`s whose increments are checked, so the claim needs them to have room:
that is `Roomy`. It says nothing about the datagram.
-/
namespace Verif.Props.Safe13
open Verif Wire Window Timer Aead M Verif.E13
open Verif.E12 (Call SearchOk Bad bad_fail Ret toApi)

section
variable {env : PEnv} {St : Type} {α β : Type}

/-- `m` runs without panic where there is room for `n` messages and leaves room for `k`. -/
def Runs (env : PEnv) (n k : Nat) (m : P St α) : Prop :=
  ∀ s, Room env.toEnv n s.eng.gauge → wp m s (fun _ s' => Room env.toEnv k s'.eng.gauge) (fun f _ => ¬ Bad (.fail f : Res Unit))

theorem Runs.bind {n k l : Nat} {m : P St α} {f : α → P St β} (h : Runs env n k m) (g : ∀ a, Runs env k l (f a)) :
    Runs env n l (M.bind m f) := by
  intro s hs
  rw [wp_bind]
  exact wp_mono (h s hs) (fun a s' h' => g a s' h') (fun _ _ h => h)

theorem Runs.pure {n : Nat} (a : α) : Runs env n n (M.pure a : P St α) := fun _ h => h

theorem Runs.less {n k : Nat} {m : P St α} (h : Runs env n k m) (hk : l ≤ k) : Runs env n l m :=
  fun s hs => wp_mono (h s hs) (fun _ _ r => ⟨r.tag, by have := r.next; omega, r.peer, r.recv⟩) (fun _ _ h => h)

/-- An engine operation with its own conditions. -/
def ERuns (env : Env) (n k : Nat) (m : E α) : Prop :=
  ∀ e, Room env n e.gauge → ¬ Bad (m e).1 ∧ ((∃ a, (m e).1 = .ok a) → Room env k (m e).2.gauge)

theorem ERuns.of_safe {env : Env} {n : Nat} {m : E α} (h : Safe (Room env n) m) : ERuns env n n m :=
  fun e he => ⟨(h e he).1, fun _ => (h e he).2⟩

theorem ERuns.lift {n k : Nat} {m : E α} (h : ERuns env.toEnv n k m) : Runs env n k (onEng m : P St α) := by
  intro s hs
  rw [wp_onEng]
  obtain ⟨h1, h2⟩ := h s.eng hs
  refine wp_of (fun a e he => ?_) fun f e he => ?_
  · rw [he] at h2; exact h2 ⟨a, rfl⟩
  · rw [he] at h1; rw [bad_fail] at h1 ⊢; exact h1

theorem createCipher_first {env : Env} (c : UInt8) (ep : Nat) (fr : Bytes) (e : Eng) (he : e.saved = []) :
    ∃ x, createCipher env c ep true fr e = sealCipher env c ep fr { e with saved := [x] } := by
  unfold createCipher saveEntry
  simp only [if_true, he, List.length_nil, List.nil_append]
  exact ⟨_, rfl⟩

theorem createKeyUpdate_runs {env : Env} {n : Nat} (req : Bool) : ERuns env (n + 1) n (createKeyUpdate env req) := by
  intro e he
  have hn : ¬ e.nextSeq ≥ 65535 := by have : e.nextSeq + (n + 1) ≤ 65535 := he.next; omega
  have hs : createKeyUpdate env req e = M.bind (createCipher env ctHandshake e.appEpoch true (keyUpdateMsg e.nextSeq req))
      (fun _ => M.modify fun t => { t with kuInFlight := true, log := .keyUpdate e.appEpoch req :: t.log })
      { flightBegin env e with nextSeq := e.nextSeq + 1 } := by
    show (if e.nextSeq ≥ 65535 then M.panic else _ : E Unit) (flightBegin env e) = _
    rw [if_neg hn]
    rfl
  have hg : Room env n ({ flightBegin env e with nextSeq := e.nextSeq + 1 } : Eng).gauge :=
    ⟨he.tag, by show e.nextSeq + 1 + n ≤ 65535; have : e.nextSeq + (n + 1) ≤ 65535 := he.next; omega, he.peer, he.recv⟩
  have hsv : ({ flightBegin env e with nextSeq := e.nextSeq + 1 } : Eng).saved = [] := rfl
  rw [hs]
  revert hg hsv
  generalize ({ flightBegin env e with nextSeq := e.nextSeq + 1 } : Eng) = e1
  intro hg hsv
  obtain ⟨x, hx⟩ := createCipher_first (env := env) ctHandshake e.appEpoch (keyUpdateMsg e.nextSeq req) e1 hsv
  unfold M.bind
  rw [hx]
  obtain ⟨h1, h2⟩ := sealCipher_safe (env := env) (P := Room env n) knows_room' ctHandshake e.appEpoch
    (keyUpdateMsg e.nextSeq req) { e1 with saved := [x] } hg
  cases hr : sealCipher env ctHandshake e.appEpoch (keyUpdateMsg e.nextSeq req) { e1 with saved := [x] } with
  | mk o e' =>
    rw [hr] at h1 h2
    cases o with
    | ok a => exact ⟨id, fun _ => ⟨h2.tag, h2.next, h2.peer, h2.recv⟩⟩
    | fail f => exact ⟨by show ¬ Bad (.fail f : Res Unit); rw [bad_fail] at h1 ⊢; exact h1, nofun⟩

theorem sendAck_safe {env : Env} {n : Nat} : Safe (Room env n) (sendAck env) := by
  intro e he
  unfold sendAck sendAckInner
  split
  · exact ⟨id, he⟩
  · exact (createCipher_safe knows_room' _ _ _).at rfl he

/-- Like `Room`, without the receive epochs: what is left while a KeyUpdate is being taken. -/
structure Half (env : Env) (n : Nat) (g : Gauge) : Prop where
  tag : ∃ cs t, g.suite = some cs ∧ env.suiteTag cs = some t
  next : g.nextSeq + n ≤ 65535
  peer : g.peerSeq < 65535

theorem updateRecvKeys_half {env : Env} {n : Nat} (e : Eng) (he : Room env n e.gauge) :
    ¬ Bad (updateRecvKeys env e).1 ∧ Half env n (updateRecvKeys env e).2.gauge := by
  unfold updateRecvKeys
  split
  · exact ⟨id, he.tag, he.next, he.peer⟩
  · rename_i latest hl
    have hlt : ¬ latest.epoch ≥ 65535 := by
      have := he.recv latest.epoch (List.mem_map_of_mem (List.mem_of_getLast? hl))
      omega
    obtain ⟨d1, d2⟩ := deriveNextSecret_safe (env := env) he latest.keys.secret
    refine fine_bind (Q := fun r => ¬ Bad r.1 ∧ Half env n r.2.gauge) d1 d2 (fun x hx => ⟨hx, he.tag, he.next, he.peer⟩)
      fun x => ?_
    rw [if_neg hlt]
    obtain ⟨d1, d2⟩ := deriveEpochKeys_safe (env := env) he x
    exact fine_bind (Q := fun r => ¬ Bad r.1 ∧ Half env n r.2.gauge) d1 d2 (fun x hx => ⟨hx, he.tag, he.next, he.peer⟩)
      fun _ => ⟨id, he.tag, he.next, he.peer⟩

theorem parseBody_keyUpdate {env : Env} {a : Bool} {su : Option Nat} {body l : Bytes} {b : Body}
    (h : parseBody env a mtKeyUpdate su body = some (l, b)) : ∃ r, b = .keyUpdate r := by
  simp (decide := true) only [parseBody, reduceIte] at h
  split at h
  · cases h; exact ⟨_, rfl⟩
  · cases h; exact ⟨_, rfl⟩
  · cases h

/-- Taking a KeyUpdate: none, or one. -/
theorem next_keyUpdate {env : Env} (e : Eng) : wp (nextHandshakeWith env false false mtKeyUpdate) e
    (fun m e' => e'.gauge = e.gauge ∧ (m = none ∨ ∃ r, m = some (.keyUpdate r))) (fun f _ => ¬ Bad (.fail f : Res Unit)) := by
  by_cases hc : hasComplete e mtKeyUpdate = true
  · have hn : nextHandshakeWith env false false mtKeyUpdate e = match nextView e.rx with
        | [] => (.fail .panic, e)
        | first :: rest => defragment env false false first rest e := by
      unfold nextHandshakeWith; rw [if_neg (by simp [hc])]; rfl
    cases hv : nextView e.rx with
    | nil =>
      exfalso
      unfold hasComplete at hc
      split at hc
      · cases hc
      · rename_i f r hcv
        obtain ⟨more, hm | hm⟩ := completeView_prefix e.rx
        · rw [hv, hcv] at hm; cases hm
        · rw [hm] at hcv; cases hcv
    | cons first rest =>
      rw [hv] at hn
      dsimp only at hn
      have hf := first_of (s := e) (first := first) (rest := rest) hc hv
      unfold defragment at hn
      dsimp only at hn
      split at hn
      · exact wp_failed hn id
      · split at hn
        · exact wp_failed hn id
        · split at hn
          · exact wp_failed hn id
          · rename_i left b hb
            split at hn
            · exact wp_failed hn id
            · rw [hf.2] at hb
              obtain ⟨r, hr⟩ := parseBody_keyUpdate hb
              exact wp_done hn ⟨rfl, .inr ⟨r, by rw [hr]⟩⟩
  · have hn : nextHandshakeWith env false false mtKeyUpdate e = (.ok none, e) := by
      unfold nextHandshakeWith
      rw [if_pos (by simpa using hc)]
    exact wp_done hn ⟨rfl, .inl rfl⟩

theorem Half.half {env : Env} {n : Nat} {g : Gauge} (h : Room env n g) : Half env n g := ⟨h.tag, h.next, h.peer⟩

theorem knows_half {env : Env} {n : Nat} : Knows env (Half env n) := fun _ h => h.tag

theorem sendAck_half {env : Env} {n : Nat} : Safe (Half env n) (sendAck env) := by
  intro e he
  unfold sendAck sendAckInner
  split
  · exact ⟨id, he⟩
  · exact (createCipher_safe knows_half _ _ _).at rfl he

theorem advance_half {env : Env} {n : Nat} (e : Eng) (he : Half env n e.gauge) : ¬ Bad (advancePeerSeq e).1 := by
  unfold advancePeerSeq
  rw [if_neg (by have : e.peerSeq < 65535 := he.peer; omega)]
  exact id

/-- An engine operation at a session, with what it gives. -/
theorem wp_fine {m : E α} {s : Ses St} {Q : α → Ses St → Prop} (h : ¬ Bad (m s.eng).1)
    (hq : ∀ a e, m s.eng = (.ok a, e) → Q a { s with eng := e }) :
    wp (onEng m) s Q (fun f _ => ¬ Bad (.fail f : Res Unit)) := by
  rw [wp_onEng]
  refine wp_of hq fun f e he => ?_
  rw [he] at h
  rw [bad_fail] at h ⊢
  exact h

theorem take_step (s : Ses St) (hs : Room env.toEnv 0 s.eng.gauge) :
    wp (takeKeyUpdate env) s (fun _ _ => True) (fun f _ => ¬ Bad (.fail f : Res Unit)) := by
  unfold takeKeyUpdate
  simp only [bind_eq, wp_bind, wp_get]
  split
  · simp only [wp_bind, wp_onEng]
    refine wp_mono (next_keyUpdate s.eng) ?_ (fun _ _ h => h)
    rintro m e ⟨hg, rfl | ⟨r, rfl⟩⟩
    · trivial
    · have hr : Room env.toEnv 0 e.gauge := hg ▸ hs
      obtain ⟨u1, u2⟩ := updateRecvKeys_half e hr
      simp only [wp_bind]
      refine wp_fine (s := { s with eng := e }) u1 fun _ e1 h1 => ?_
      have h1 : updateRecvKeys env.toEnv e = _ := h1
      rw [h1] at u2
      obtain ⟨v1, v2⟩ := sendAck_half e1 u2
      refine wp_fine (s := { s with eng := e1 }) v1 fun _ e2 h2 => ?_
      have h2 : sendAck env.toEnv e1 = _ := h2
      rw [h2] at v2
      rw [wp_modify]
      exact wp_fine (advance_half _ v2) fun _ _ _ => trivial
  · trivial

theorem half_step (self closed : St) (s : Ses St) (hs : Room env.toEnv 0 s.eng.gauge) :
    wp (halfClosedLocal env self closed) s (fun x _ => x = self ∨ x = closed) (fun f _ => ¬ Bad (.fail f : Res Unit)) := by
  unfold halfClosedLocal
  simp only [bind_eq, wp_bind, wp_get]
  have hlast : ∀ t : Ses St, (if t.eng.closeSeq.isSome then closed else self) = self ∨
      (if t.eng.closeSeq.isSome then closed else self) = closed := by
    intro t
    split
    · exact .inr rfl
    · exact .inl rfl
  split
  · simp only [wp_bind, wp_onEng]
    refine wp_mono (next_keyUpdate s.eng) ?_ (fun _ _ h => h)
    rintro m e ⟨hg, rfl | ⟨r, rfl⟩⟩
    · exact hlast _
    · have hr : Room env.toEnv 0 e.gauge := hg ▸ hs
      obtain ⟨u1, u2⟩ := updateRecvKeys_half e hr
      simp only [wp_bind]
      refine wp_fine (s := { s with eng := e }) u1 fun _ e1 h1 => ?_
      have h1 : updateRecvKeys env.toEnv e = _ := h1
      rw [h1] at u2
      exact wp_fine (advance_half _ u2) fun _ _ _ => hlast _
  · exact hlast _

theorem drain_runs {n : Nat} (ep : Nat) (l : List Bytes) : Runs env n n (drainLoop env ep l : P St Unit) := by
  induction l with
  | nil => exact .pure ()
  | cons d l ih => exact .bind (ERuns.of_safe (createCipher_safe knows_room' _ _ _)).lift fun _ => ih

/-- One step of the connected state. -/
theorem app_step (self : St) (s : Ses St) (hs : Room env.toEnv 2 s.eng.gauge) :
    wp (awaitApplicationData env self) s (fun x _ => x = self) (fun f _ => ¬ Bad (.fail f : Res Unit)) := by
  have h1 : Runs env 2 1 (autoKeyUpdate env : P St Unit) := by
    intro s hs
    unfold autoKeyUpdate
    simp only [bind_eq, wp_bind, wp_get]
    have hl : Room env.toEnv 1 s.eng.gauge := ⟨hs.tag, by have := hs.next; omega, hs.peer, hs.recv⟩
    split
    · rw [wp_bind, wp_onEng']
      split
      · exact ⟨hl.tag, hl.next, hl.peer, hl.recv⟩
      · exact (createKeyUpdate_runs (env := env.toEnv) (n := 1) true).lift _ ⟨hs.tag, hs.next, hs.peer, hs.recv⟩
    · exact hl
  have h2 : Runs env 1 1 (drainQueued env : P St Unit) := by
    intro s hs
    unfold drainQueued
    simp only [bind_eq, wp_bind, wp_get, wp_set]
    exact drain_runs _ _ { s with queued := [] } hs
  have h3 : Runs env 1 0 (respondKeyUpdate env : P St Unit) := by
    intro s hs
    unfold respondKeyUpdate
    simp only [bind_eq, wp_bind, wp_get]
    split
    · rw [wp_bind]
      refine wp_mono ((createKeyUpdate_runs (env := env.toEnv) (n := 0) false).lift s hs) (fun _ _ h => ?_) (fun _ _ h => h)
      exact h
    · exact ⟨hs.tag, by have := hs.next; omega, hs.peer, hs.recv⟩
  unfold awaitApplicationData
  simp only [bind_eq, wp_bind]
  refine wp_mono (h1 s hs) (fun _ s1 hs1 => ?_) (fun _ _ h => h)
  refine wp_mono (h2 s1 hs1) (fun _ s2 hs2 => ?_) (fun _ _ h => h)
  refine wp_mono (h3 s2 hs2) (fun _ s3 hs3 => ?_) (fun _ _ h => h)
  exact wp_mono (take_step s3 hs3) (fun _ _ _ => rfl) (fun _ _ h => h)

end

section
variable {env : PEnv} {cfg : Cfg} {R : Role} {s0 : Ses R.St}

theorem step_app (h : Start env cfg R s0) : R.step env R.app = awaitApplicationData env R.app := by
  cases h <;> rfl

theorem step_half (h : Start env cfg R s0) : R.step env R.halfClosed = halfClosedLocal env R.halfClosed R.closed := by
  cases h <;> rfl

theorem step_closed (h : Start env cfg R s0) : R.step env R.closed = M.pure R.closed := by
  cases h <;> rfl

theorem first_not (h : Start env cfg R s0) : R.first R.app = false ∧ R.first R.halfClosed = false ∧ R.first R.closed = false := by
  cases h <;> exact ⟨rfl, rfl, rfl⟩

/-- The states after the handshake. -/
def After (R : Role) (st : R.St) : Prop := st = R.app ∨ st = R.halfClosed ∨ st = R.closed

/-- The loop of `make_progress` ends, without panic. -/
theorem progress_fine (h : Start env cfg R s0) (s : Ses R.St) (n : Nat) (hst : After R s.st)
    (hr : Room env.toEnv 2 s.eng.gauge) :
    wp (progress R env (n + 2)) s (fun _ _ => True) (fun f _ => ¬ Bad (.fail f : Res Unit)) := by
  have hclosed : ∀ t : Ses R.St, t.st = R.closed →
      wp (progress R env (n + 1)) t (fun _ _ => True) (fun f _ => ¬ Bad (.fail f : Res Unit)) := by
    intro t ht
    unfold progress
    simp only [bind_eq, wp_bind, wp_get]
    rw [ht, step_closed h]
    simp only [wp_pure, if_true, pure_eq]
  unfold progress
  simp only [bind_eq, wp_bind, wp_get]
  rcases hst with hst | hst | hst
  · rw [hst, step_app h]
    refine wp_mono (app_step R.app s hr) (fun x s' hx => ?_) (fun _ _ h => h)
    subst hx
    rw [if_pos rfl]
    trivial
  · rw [hst, step_half h]
    have hr0 : Room env.toEnv 0 s.eng.gauge := ⟨hr.tag, by have := hr.next; omega, hr.peer, hr.recv⟩
    refine wp_mono (half_step R.halfClosed R.closed s hr0) (fun x s' hx => ?_) (fun _ _ h => h)
    split
    · trivial
    · rename_i hne
      rcases hx with hx | hx
      · exact absurd hx.symm hne
      · simp only [wp_bind, wp_modify]
        exact hclosed _ hx
  · rw [hst, step_closed h]
    simp only [wp_pure, if_true, pure_eq]

/-- Room in the `u16` counters: two more messages of ours, one of the peer, one more epoch of the peer, and one
more of ours if a KeyUpdate of ours may still be acknowledged. -/
structure Roomy (e : Eng) : Prop where
  next : e.nextSeq ≤ 65533
  peer : e.peerSeq < 65535
  recv : ∀ k ∈ e.appRecv, k.epoch < 65535
  epoch : e.kuInFlight = true → e.appEpoch < 65535

theorem room_of (h : Start env cfg R s0) (hk : SuitesKnown env.toEnv) (cs : List Call)
    (hrel : (run R env s0 cs).2.eng.release = true) (hr : Roomy (run R env s0 cs).2.eng) :
    Room env.toEnv 2 (run R env s0 cs).2.eng.gauge ∧ Turn (run R env s0 cs).2.eng.gauge := by
  have hi := h.suiteInv cs
  refine ⟨⟨?_, ?_, hr.peer, ?_⟩, hr.epoch⟩
  · obtain ⟨cs, t, h1, h2⟩ := hi.tag hk (hi.rel hrel)
    refine ⟨cs, t, h1, ?_⟩
    unfold Eng.tag at h2
    rw [h1] at h2
    exact h2
  · have := hr.next
    show (run R env s0 cs).2.eng.nextSeq + 2 ≤ 65535
    omega
  · intro x hx
    obtain ⟨k, hk, rfl⟩ := List.mem_map.mp hx
    exact hr.recv k hk

theorem fine_ret {m : P R.St Unit} {s : Ses R.St}
    (h : wp m s (fun _ _ => True) (fun f _ => ¬ Bad (.fail f : Res Unit))) :
    Ret.res (toApi (m s).1) ≠ .res .panic ∧ Ret.res (toApi (m s).1) ≠ .res .diverge := by
  cases hm : m s with
  | mk o s' =>
    cases o with
    | ok a => exact ⟨nofun, nofun⟩
    | fail f =>
      have := wp_fail h hm
      cases f <;> first | exact absurd trivial this | exact ⟨nofun, nofun⟩

theorem wp_safe {α : Type} {G : Gauge → Prop} {m : E α} (h : Safe G m) {s : Ses R.St} (hp : G s.eng.gauge) :
    wp (onEng m : P R.St α) s (fun _ s' => G s'.eng.gauge ∧ s' = { s with eng := s'.eng })
      (fun f _ => ¬ Bad (.fail f : Res Unit)) := by
  refine wp_fine (h s.eng hp).1 fun a e he => ?_
  have := (h s.eng hp).2
  rw [he] at this
  exact ⟨this, rfl⟩

/-- No call panics, or does not return, once application data is released. -/
theorem released_fine (h : Start env cfg R s0) (hk : SuitesKnown env.toEnv) (hse : SearchOk env.search) (cs : List Call)
    (c : Call) : let s := (run R env s0 cs).2
    s.eng.release = true → After R s.st → Roomy s.eng →
    (call R env s c).1 ≠ .res .panic ∧ (call R env s c).1 ≠ .res .diverge := by
  intro s hrel hst hr
  obtain ⟨h1, h2⟩ := room_of h hk cs hrel hr
  revert h1 h2
  change Room env.toEnv 2 s.eng.gauge → Turn s.eng.gauge → _
  intro h1 h2
  have hfirst : R.first s.st = false := by
    obtain ⟨a, b, c⟩ := first_not h
    rcases hst with hst | hst | hst <;> rw [hst] <;> assumption
  cases c with
  | packet p =>
    refine fine_ret (m := handlePacketM R env p) (s := s) ?_
    unfold handlePacketM
    simp only [bind_eq, wp_bind, wp_get, hfirst, Bool.and_false, Bool.false_eq_true, if_false]
    refine wp_mono (wp_safe (parsePacket_safe (n := 2) hse p) ⟨h1, h2⟩) ?_ (fun _ _ h => h)
    rintro _ s' ⟨⟨g1, _⟩, g2⟩
    refine wp_mono (progress_fine h s' 38 (by rw [g2]; exact hst) g1) (fun _ _ _ => trivial) (fun _ _ h => h)
  | timeout n =>
    refine fine_ret (m := handleTimeoutM R env n) (s := s) ?_
    unfold handleTimeoutM
    simp only [bind_eq, wp_bind, wp_modify]
    have hn : (noteTime R env n s).eng.gauge = s.eng.gauge ∧ (noteTime R env n s).st = s.st := by
      unfold noteTime
      split <;> exact ⟨rfl, rfl⟩
    refine wp_mono (wp_safe (handleTimeout_safe (knows_room' (n := 2)) n) (by rw [hn.1]; exact h1)) ?_ (fun _ _ h => h)
    rintro _ s' ⟨g1, g2⟩
    exact progress_fine h s' 38 (by rw [g2]; show After R (noteTime R env n s).st; rw [hn.2]; exact hst) g1
  | send d =>
    refine fine_ret (m := sendM R env d) (s := s) ?_
    unfold sendM
    simp only [bind_eq, wp_bind, wp_get]
    split
    · exact id
    · split
      · trivial
      · exact wp_mono (wp_safe (createCipher_safe (knows_room' (n := 2)) _ _ _) h1) (fun _ _ _ => trivial) (fun _ _ h => h)
  | close =>
    refine fine_ret (m := closeM R env) (s := s) ?_
    unfold closeM
    simp only [bind_eq, wp_bind, wp_get]
    split
    · trivial
    · split
      · trivial
      · rw [wp_bind]
        exact wp_mono (wp_safe (createCipher_safe (knows_room' (n := 2)) _ _ _) h1) (fun _ _ _ => trivial) (fun _ _ h => h)
  | poll n => exact ⟨nofun, nofun⟩

/-- **C22 (DTLS 1.3), partial.** No datagram, timeout, send or close makes a connected session panic or loop, as
long as its counters have room. Nothing is assumed of the datagram. What is missing: the handshake. -/
theorem no_panic_when_connected_partial (h : Start env cfg R s0) (hk : SuitesKnown env.toEnv) (hse : SearchOk env.search)
    (cs : List Call) (c : Call) : let s := (run R env s0 cs).2
    s.st = R.app → Roomy s.eng → (call R env s c).1 ≠ .res .panic ∧ (call R env s c).1 ≠ .res .diverge :=
  fun hst hr => released_fine h hk hse cs c (h.connected cs hst) (.inl hst) hr

end

/-! ## A concrete case -/

/-- `Roomy` as a test. -/
def roomy (e : Eng) : Bool :=
  decide (e.nextSeq ≤ 65533) && decide (e.peerSeq < 65535) && e.appRecv.all (fun k => decide (k.epoch < 65535)) &&
    (!e.kuInFlight || decide (e.appEpoch < 65535))

theorem Roomy.of {e : Eng} (h : roomy e = true) : Roomy e := by
  unfold roomy at h
  simp only [Bool.and_eq_true, decide_eq_true_eq, List.all_eq_true, Bool.or_eq_true, Bool.not_eq_true'] at h
  obtain ⟨⟨⟨h1, h2⟩, h3⟩, h4⟩ := h
  refine ⟨h1, h2, h3, fun h => ?_⟩
  rcases h4 with h4 | h4
  · rw [h] at h4; cases h4
  · exact h4

/-- The client and the server of the demo are connected and have room. -/
theorem demo_roomy :
    ((Demo.clientRun Demo.plainEnv []).2.st = .awaitApplicationData ∧ roomy (Demo.clientRun Demo.plainEnv []).2.eng = true) ∧
    ((Demo.serverRun Demo.plainEnv []).2.st = .awaitApplicationData ∧ roomy (Demo.serverRun Demo.plainEnv []).2.eng = true) := by
  decide +kernel

theorem demo_search : SearchOk Demo.plainEnv.search := Verif.Props.Recv12.search_ok_demo

theorem demo_suites : SuitesKnown Demo.plainEnv.toEnv := Verif.Props.Recv13.suites_known_demo [29] false false

/-- The theorem for a client, with the environment and the calls still unknown. -/
theorem client_case {env : PEnv} {cfg : Cfg} (hk : SuitesKnown env.toEnv) (hse : SearchOk env.search) {cs : List Call}
    (c : Call) {r : List Ret × Ses CSt} (hr : r = run C13.role env (C13.start env cfg 0) cs)
    (h1 : r.2.st = CSt.awaitApplicationData) (h2 : roomy r.2.eng = true) :
    (call C13.role env r.2 c).1 ≠ .res .panic := by
  subst hr
  have h := no_panic_when_connected_partial (R := C13.role) (.client (cfg := cfg) 0) hk hse cs c
  exact (h h1 (.of h2)).1

theorem clientRun_eq (env : PEnv) :
    Demo.clientRun env [] = run C13.role env (C13.start env Demo.cfg 0) (Demo.clientCalls env ++ []) := rfl

/-- So nothing makes the client panic. -/
theorem demo_case (c : Call) : (call C13.role Demo.plainEnv (Demo.clientRun Demo.plainEnv []).2 c).1 ≠ .res .panic :=
  client_case demo_suites demo_search c (clientRun_eq Demo.plainEnv) demo_roomy.1.1 demo_roomy.1.2

end Verif.Props.Safe13

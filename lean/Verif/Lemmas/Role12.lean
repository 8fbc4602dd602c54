import Verif.Lemmas.Saga12
/-!
# The role of the engine of a DTLS 1.2 session never changes
-/
namespace Verif.E12
open Verif Wire Window Timer Aead M

def SameRole (a b : Eng) : Prop := b.isClient = a.isClient

theorem Quiet.role {a b : Eng} (h : Quiet a b) : SameRole a b := by
  obtain ⟨_, _, _, _, _, _, _, _, _, _, _, _, _, rfl⟩ := h
  rfl

theorem role_in (env : Env) : InFrame env SameRole where
  refl _ := rfl
  trans _ _ _ h g := g.trans h
  recv e p := by
    obtain ⟨rp, cf, cr, es, he, hs⟩ := recordsParse_frame env p e
    rw [hs]; rfl
  resend e := (flightResend_frame env e).keep.isClient
  rx _ _ _ := rfl
  peerEnc _ := rfl

theorem role_frame (env : Env) : Frame env SameRole where
  refl _ := rfl
  trans _ _ _ h g := g.trans h
  handshake e t b := (createHandshake_quiet env t b e).role
  ccs _ := (createRecord_frame ..).keep.isClient
  nextHandshake e t := (nextHandshake_quiet env t e).role
  nextRecord e c := (nextRecord_quiet c e).role
  enablePeer e := (role_in env).enablePeer e
  flightBegin _ := rfl
  flightStop _ := rfl
  release _ := rfl
  resetServer e := by unfold resetServerForHvr; repeat' split
                      all_goals rfl
  resetClient e := by unfold resetClientForHvr; repeat' split
                      all_goals rfl
  dropCcs e := by unfold dropPendingCcs; repeat' split
                  all_goals rfl
  tick _ := rfl
  suite e cs := by unfold setCipherSuite; split <;> rfl
  master _ _ := rfl
  keys _ _ := rfl

variable {R : Role} {env : PEnv}

/-- The role and the state stay. -/
def RFr {St α : Type} (m : P St α) : Prop :=
  ∀ s, (m s).2.eng.isClient = s.eng.isClient ∧ (m s).2.st = s.st

theorem RFr.bind {St α β : Type} {m : P St α} {f : α → P St β} (h : RFr m) (g : ∀ a, RFr (f a)) :
    RFr (M.bind m f) := by
  intro s
  rw [bind_snd]
  split
  · exact ⟨(g _ _).1.trans (h s).1, (g _ _).2.trans (h s).2⟩
  · exact h s

theorem RFr.record {St : Type} (c : UInt8) (n : Nat) (d : Bytes) :
    RFr (onEng (createRecord env.toEnv c n false false d) : P St Unit) := fun s =>
  ⟨(createRecord_frame env.toEnv c n false false d s.eng).keep.isClient, rfl⟩

theorem drainLoop_role {St : Type} (ds : List Bytes) : RFr (drainLoop env ds : P St Unit) := by
  induction ds with
  | nil => exact fun _ => ⟨rfl, rfl⟩
  | cons d rest ih =>
    unfold drainLoop
    exact .bind (.record _ _ _) fun _ => ih

theorem app_role {St : Type} (a b : St) : RFr (awaitApplicationData env a b) := by
  unfold awaitApplicationData sendCloseNotify drainQueued
  simp only [bind_eq, pure_eq]
  refine .bind (fun _ => ⟨rfl, rfl⟩) fun s => ?_
  split
  · exact .bind (fun _ => ⟨rfl, rfl⟩) fun _ => .bind (.record _ _ _) fun _ _ => ⟨rfl, rfl⟩
  · exact .bind (fun s => by
      show (M.bind _ _ s).2.eng.isClient = _ ∧ _
      rw [bind_snd]
      exact drainLoop_role s.queued { s with queued := [] }) fun _ _ => ⟨rfl, rfl⟩

theorem role_stable (hr : RoleOk R env) (b : Bool) :
    Stable R env (fun _ => True) (fun s => s.eng.isClient = b) where
  packet s p h := ((role_in env.toEnv).parsePacket p s.eng).trans h
  note s n h := by unfold noteTime; split <;> exact h
  timeout s n h := ((handleTimeout_quiet env.toEnv n s.eng).role).trans h
  step s h := by
    have hs : RFr (R.step env s.st) := by
      by_cases ha : s.st = R.app
      · rw [ha, hr.app]; exact app_role _ _
      · exact fun s' => ⟨(hr.fr (role_frame env.toEnv) s.st ha s').1, (hr.fr (role_frame env.toEnv) s.st ha s').2.2.1⟩
    refine wp_mono (to_wp (R := fun s' => s'.eng.isClient = s.eng.isClient ∧ s'.st = s.st) (hs s)) ?_ ?_
    · intro new s' g
      exact ⟨g.2, g.1.trans h⟩
    · intro _ s' g
      exact g.1.trans h
  send s d _ h := by
    have : RFr (sendM R env d) := by
      unfold sendM
      simp only [bind_eq]
      refine .bind (fun _ => ⟨rfl, rfl⟩) fun s => ?_
      repeat' split
      · exact fun _ => ⟨rfl, rfl⟩
      · exact fun _ => ⟨rfl, rfl⟩
      · exact .record _ _ _
    exact (this s).1.trans h
  close s h := by
    refine (?_ : (closeM R env s).2.eng.isClient = s.eng.isClient).trans h
    unfold closeM sendCloseNotify
    simp only [bind_eq, pure_eq]
    rw [bind_snd]
    dsimp only [M.get]
    repeat' split
    · rfl
    · rfl
    · rw [bind_snd]
      split
      · exact (RFr.record _ _ _ s).1
      · exact (RFr.record _ _ _ s).1
  poll s n h := by
    unfold pollM
    split
    · exact h
    · exact ((Core.poll (ok := fun _ => True) (env := env.toEnv) s.eng n s.lastNow).keep.isClient).trans h

/-- No call changes the role of the engine. -/
theorem call_isClient (hr : RoleOk R env) (s : Ses R.St) (c : Call) :
    (call R env s c).2.eng.isClient = s.eng.isClient :=
  (role_stable hr s.eng.isClient).call s c (fun _ _ => trivial) rfl

end Verif.E12

import Verif.Lemmas.Frame13
import Verif.Lemmas.Engine13
/-!
# Relations kept by every API call of a DTLS 1.3 session
-/
namespace Verif.E13
open Verif Wire Window Timer Aead M
open Verif.E12 (Call)

section
variable {St : Type}

/-- What is queued before the connection is up satisfies `ok`. -/
def QOk (ok : Bytes → Prop) (s : Ses St) : Prop := ∀ d ∈ s.queued, ok d

/-- `m` keeps the state, relates the engines by `U`, and only removes queued data. -/
def AFr (ok : Bytes → Prop) (U : Eng → Eng → Prop) {α : Type} (m : P St α) : Prop :=
  ∀ s, QOk ok s → U s.eng (m s).2.eng ∧ QOk ok (m s).2 ∧ (m s).2.st = s.st

variable {env : PEnv} {ok : Bytes → Prop} {U : Eng → Eng → Prop} {stop : Prop} {α β : Type}

theorem Fr.afr {m : P St α} (h : Fr U m) : AFr ok U m := fun s hq =>
  ⟨(h s).1, by unfold QOk; rw [(h s).2.1]; exact hq, (h s).2.2⟩

theorem AFr.bind (hf : Frame env.toEnv U stop) {m : P St α} {f : α → P St β} (h : AFr ok U m)
    (g : ∀ a, AFr ok U (f a)) : AFr ok U (M.bind m f) := by
  intro s hq
  rw [bind_snd]
  obtain ⟨h1, h2, h3⟩ := h s hq
  split
  · obtain ⟨g1, g2, g3⟩ := g _ (m s).2 h2
    exact ⟨hf.trans _ _ _ h1 g1, g2, g3.trans h3⟩
  · exact ⟨h1, h2, h3⟩

theorem drainLoop_fr (hf : Frame env.toEnv U stop) (ha : AppFrame env.toEnv ok U) (l : List Bytes)
    (hl : ∀ d ∈ l, ok d) (s : Ses St) :
    U s.eng (drainLoop env s.eng.appEpoch l s).2.eng ∧
      (drainLoop env s.eng.appEpoch l s).2.queued = s.queued ∧
      (drainLoop env s.eng.appEpoch l s).2.st = s.st := by
  induction l generalizing s with
  | nil => exact ⟨hf.refl _, rfl, rfl⟩
  | cons d rest ih =>
    unfold drainLoop
    simp only [bind_eq]
    rw [bind_snd]
    have h1 : U s.eng (sendApp env s.eng.appEpoch d s).2.eng := ha.data s.eng d (hl d (by simp))
    have h2 : (sendApp env s.eng.appEpoch d s).2.eng.appEpoch = s.eng.appEpoch :=
      createCipher_appEpoch ..
    split
    · have h3 := ih (fun x hx => hl x (by simp [hx])) (sendApp env s.eng.appEpoch d s).2
      rw [h2] at h3
      exact ⟨hf.trans _ _ _ h1 h3.1, h3.2.1, h3.2.2⟩
    · exact ⟨h1, rfl, rfl⟩

theorem drainQueued_fr (hf : Frame env.toEnv U stop) (ha : AppFrame env.toEnv ok U) :
    AFr ok U (drainQueued env : P St Unit) := by
  intro s hq
  have h : (drainQueued env : P St Unit) s = drainLoop env s.eng.appEpoch s.queued { s with queued := [] } :=
    rfl
  rw [h]
  have g := drainLoop_fr hf ha s.queued hq { s with queued := [] }
  refine ⟨g.1, ?_, g.2.2⟩
  unfold QOk
  rw [g.2.1]
  intro d hd
  cases hd

theorem autoKeyUpdate_fr (hf : Frame env.toEnv U stop) (ha : AppFrame env.toEnv ok U) :
    Fr U (autoKeyUpdate env : P St Unit) := by
  intro s
  cases h1 : s.eng.needsKu with
  | false =>
    have hs : autoKeyUpdate env s = (.ok (), s) := by
      unfold autoKeyUpdate; simp [bind_eq, M.bind, M.get, M.andThen, h1]; rfl
    rw [hs]
    exact ⟨hf.refl _, rfl, rfl⟩
  | true =>
    cases h2 : s.eng.kuInFlight with
    | true =>
      have hs : autoKeyUpdate env s = (.ok (), { s with eng := { s.eng with needsKu := false } }) := by
        unfold autoKeyUpdate; simp [bind_eq, M.bind, M.get, M.andThen, onEng', M.modify, h1, h2]; try rfl
      rw [hs]
      exact ⟨ha.asked _, rfl, rfl⟩
    | false =>
      have hs : autoKeyUpdate env s =
          onEng (createKeyUpdate env.toEnv true) { s with eng := { s.eng with needsKu := false } } := by
        unfold autoKeyUpdate; simp [bind_eq, M.bind, M.get, M.andThen, onEng', M.modify, h1, h2]; try rfl
      rw [hs]
      exact ⟨ha.auto s.eng h1 h2, rfl, rfl⟩

theorem respondKeyUpdate_fr (hf : Frame env.toEnv U stop) (ha : AppFrame env.toEnv ok U) :
    Fr U (respondKeyUpdate env : P St Unit) := by
  have h2 : Fr U (onEng (createKeyUpdate env.toEnv false) : P St Unit) := .onEng fun e => ha.keyUpdate e
  unfold respondKeyUpdate; simp only [bind_eq, pure_eq]; fr hf

theorem takeKeyUpdate_fr (hf : Frame env.toEnv U stop) (ha : AppFrame env.toEnv ok U) :
    Fr U (takeKeyUpdate env : P St Unit) := by
  have h1 : Fr U (onEng (updateRecvKeys env.toEnv) : P St Unit) := .onEng ha.newRecv
  have h2 : Fr U (onEng (sendAck env.toEnv) : P St Unit) := .onEng ha.ack
  unfold takeKeyUpdate; simp only [bind_eq, pure_eq]; fr hf

theorem awaitApplicationData_fr (hf : Frame env.toEnv U stop) (ha : AppFrame env.toEnv ok U) (a : St) :
    AFr ok U (awaitApplicationData env a) := by
  unfold awaitApplicationData
  simp only [bind_eq, pure_eq]
  exact .bind hf (autoKeyUpdate_fr hf ha).afr fun _ => .bind hf (drainQueued_fr hf ha) fun _ =>
    .bind hf (respondKeyUpdate_fr hf ha).afr fun _ => .bind hf (takeKeyUpdate_fr hf ha).afr fun _ =>
    (Fr.pure hf _).afr

theorem halfClosedLocal_fr (hf : Frame env.toEnv U stop) (hr : ∀ e, U e (updateRecvKeys env.toEnv e).2)
    (a b : St) : Fr U (halfClosedLocal env a b) := by
  have h1 : Fr U (onEng (updateRecvKeys env.toEnv) : P St Unit) := .onEng hr
  unfold halfClosedLocal; simp only [bind_eq, pure_eq]; fr hf

end

/-- What both roles have in common. -/
structure RoleOk (R : Role) (env : PEnv) (keying : R.St → Bool) : Prop where
  appClosed : R.app ≠ R.closed
  appHalf : R.app ≠ R.halfClosed
  halfNe : R.halfClosed ≠ R.closed
  app : R.step env R.app = awaitApplicationData env R.app
  half : R.step env R.halfClosed = halfClosedLocal env R.halfClosed R.closed
  closed : R.step env R.closed = M.pure R.closed
  fr : ∀ {U : Eng → Eng → Prop}, Frame env.toEnv U → ∀ st, st ≠ R.app → st ≠ R.halfClosed →
    (keying st = true → KeyFrame env.toEnv U) → Fr U (R.step env st)

theorem C13.roleOk (env : PEnv) : RoleOk C13.role env C13.keying :=
  ⟨by decide, by decide, by decide, rfl, rfl, rfl, fun hf st h h' hn => C13.step_fr hf st h h' hn⟩

theorem S13.roleOk (env : PEnv) : RoleOk S13.role env S13.keying :=
  ⟨by decide, by decide, by decide, rfl, rfl, rfl, fun hf st h h' hn => S13.step_fr hf st h h' (fun _ => trivial) hn⟩

section calls
variable {R : Role} {env : PEnv} {keying : R.St → Bool} {ok : Bytes → Prop} {U : Eng → Eng → Prop}
  {stop : Prop}

theorem step_afr (ho : RoleOk R env keying) (hf : Frame env.toEnv U) (hk : KeyFrame env.toEnv U)
    (ha : AppFrame env.toEnv ok U) (st : R.St) : AFr ok U (R.step env st) := by
  by_cases h1 : st = R.app
  · subst h1; rw [ho.app]; exact awaitApplicationData_fr hf ha _
  · by_cases h2 : st = R.halfClosed
    · subst h2; rw [ho.half]; exact (halfClosedLocal_fr hf ha.newRecv _ _).afr
    · exact (ho.fr hf st h1 h2 fun _ => hk).afr

theorem progress_of (hf : Frame env.toEnv U stop) (hs : ∀ st, AFr ok U (R.step env st)) (n : Nat) (s : Ses R.St) (hq : QOk ok s) :
    U s.eng (progress R env n s).2.eng ∧ QOk ok (progress R env n s).2 := by
  induction n generalizing s with
  | zero => exact ⟨hf.refl _, hq⟩
  | succ n ih =>
    unfold progress
    simp only [bind_eq, pure_eq]
    have h := hs s.st s hq
    change U s.eng (M.bind (R.step env s.st) _ s).2.eng ∧ QOk ok (M.bind (R.step env s.st) _ s).2
    rw [bind_snd]
    split
    · split
      · exact ⟨h.1, h.2.1⟩
      · rename_i new _ _
        have g := ih { (R.step env s.st s).2 with st := new } h.2.1
        exact ⟨hf.trans _ _ _ h.1 g.1, g.2⟩
    · exact ⟨h.1, h.2.1⟩

theorem progress_afr (ho : RoleOk R env keying) (hf : Frame env.toEnv U) (hk : KeyFrame env.toEnv U)
    (ha : AppFrame env.toEnv ok U) (n : Nat) (s : Ses R.St) (hq : QOk ok s) :
    U s.eng (progress R env n s).2.eng ∧ QOk ok (progress R env n s).2 :=
  progress_of hf (step_afr ho hf hk ha) n s hq

theorem handlePacketM_of (hf : Frame env.toEnv U stop) (hs : ∀ st, AFr ok U (R.step env st))
    (hp : ∀ e p, U e (parsePacket env.toEnv p e).2) (p : Bytes) (s : Ses R.St) (hq : QOk ok s) :
    U s.eng (handlePacketM R env p s).2.eng ∧ QOk ok (handlePacketM R env p s).2 := by
  have key : ∀ s : Ses R.St, QOk ok s → U s.eng (M.bind (onEng (parsePacket env.toEnv p)) (fun _ =>
      M.bind (progress R env progressFuel) fun _ => M.modify fun s =>
        if s.autoMode && !R.first s.st then { s with retained := [], autoMode := false } else s) s).2.eng ∧
      QOk ok (M.bind (onEng (parsePacket env.toEnv p)) (fun _ =>
      M.bind (progress R env progressFuel) fun _ => M.modify fun s =>
        if s.autoMode && !R.first s.st then { s with retained := [], autoMode := false } else s) s).2 := by
    intro s hq
    rw [bind_snd]
    have h1 : U s.eng ((onEng (parsePacket env.toEnv p) : P R.St Unit) s).2.eng := hp s.eng p
    split
    · rw [bind_snd]
      have h2 := progress_of hf hs progressFuel ((onEng (parsePacket env.toEnv p) : P R.St Unit) s).2 hq
      split
      · have hm : ∀ t : Ses R.St, ((M.modify (fun s : Ses R.St =>
            if s.autoMode && !R.first s.st then { s with retained := [], autoMode := false } else s)) t).2.eng = t.eng ∧
            ((M.modify (fun s : Ses R.St =>
            if s.autoMode && !R.first s.st then { s with retained := [], autoMode := false } else s)) t).2.queued =
              t.queued := by
          intro t
          show (if t.autoMode && !R.first t.st then _ else t : Ses R.St).eng = _ ∧
            (if t.autoMode && !R.first t.st then _ else t : Ses R.St).queued = _
          split <;> exact ⟨rfl, rfl⟩
        refine ⟨?_, ?_⟩
        · rw [(hm _).1]; exact hf.trans _ _ _ h1 h2.1
        · unfold QOk; rw [(hm _).2]; exact h2.2
      · exact ⟨hf.trans _ _ _ h1 h2.1, h2.2⟩
    · exact ⟨h1, hq⟩
  unfold handlePacketM
  simp only [bind_eq]
  rw [bind_snd]
  change U s.eng ((if s.autoMode && R.first s.st then _ else _ : P R.St Unit) s).2.eng ∧
    QOk ok ((if s.autoMode && R.first s.st then _ else _ : P R.St Unit) s).2
  split
  · split
    · exact ⟨hf.refl _, hq⟩
    · exact key { s with retained := s.retained ++ [p] } hq
  · exact key s hq

theorem noteTime_eng (n : Nat) (s : Ses R.St) (hf : Frame env.toEnv U stop) :
    U s.eng (noteTime R env n s).eng ∧ (noteTime R env n s).queued = s.queued ∧
      (noteTime R env n s).st = s.st := by
  unfold noteTime
  split
  · exact ⟨hf.refl _, rfl, rfl⟩
  · exact ⟨hf.tick _, rfl, rfl⟩

theorem handleTimeoutM_of (hf : Frame env.toEnv U stop) (hs : ∀ st, AFr ok U (R.step env st))
    (hp : ∀ e n, U e (handleTimeout env.toEnv n e).2) (n : Nat) (s : Ses R.St) (hq : QOk ok s) :
    U s.eng (handleTimeoutM R env n s).2.eng ∧ QOk ok (handleTimeoutM R env n s).2 := by
  unfold handleTimeoutM
  simp only [bind_eq]
  obtain ⟨h1, h2, _⟩ := noteTime_eng n s hf
  change U s.eng (M.bind (onEng (handleTimeout env.toEnv n)) (fun _ => progress R env progressFuel)
    (noteTime R env n s)).2.eng ∧ QOk ok (M.bind (onEng (handleTimeout env.toEnv n))
      (fun _ => progress R env progressFuel) (noteTime R env n s)).2
  have hq1 : QOk ok (noteTime R env n s) := by unfold QOk; rw [h2]; exact hq
  generalize noteTime R env n s = s1 at h1 hq1
  rw [bind_snd]
  have h3 : U s1.eng ((onEng (handleTimeout env.toEnv n) : P R.St Unit) s1).2.eng := hp s1.eng n
  split
  · have h4 := progress_of hf hs progressFuel ((onEng (handleTimeout env.toEnv n) : P R.St Unit) s1).2 hq1
    exact ⟨hf.trans _ _ _ h1 (hf.trans _ _ _ h3 h4.1), h4.2⟩
  · exact ⟨hf.trans _ _ _ h1 h3, hq1⟩

theorem sendM_afr (hf : Frame env.toEnv U stop) (ha : AppFrame env.toEnv ok U) (d : Bytes) (hd : ok d)
    (s : Ses R.St) (hq : QOk ok s) :
    U s.eng (sendM R env d s).2.eng ∧ QOk ok (sendM R env d s).2 := by
  unfold sendM
  simp only [bind_eq]
  change U s.eng ((if _ then _ else if _ then _ else _ : P R.St Unit) s).2.eng ∧
    QOk ok ((if _ then _ else if _ then _ else _ : P R.St Unit) s).2
  split
  · exact ⟨hf.refl _, hq⟩
  · split
    · refine ⟨hf.refl _, ?_⟩
      intro x hx
      change x ∈ s.queued ++ [d] at hx
      rcases List.mem_append.mp hx with h | h
      · exact hq x h
      · rw [List.mem_singleton.mp h]; exact hd
    · exact ⟨ha.data s.eng d hd, hq⟩

theorem closeM_afr (hf : Frame env.toEnv U stop) (hp : ApiFrame env.toEnv U) (s : Ses R.St) (hq : QOk ok s) :
    U s.eng (closeM R env s).2.eng ∧ QOk ok (closeM R env s).2 := by
  unfold closeM
  simp only [bind_eq, pure_eq]
  change U s.eng ((if _ then _ else if _ then _ else _ : P R.St Unit) s).2.eng ∧
    QOk ok ((if _ then _ else if _ then _ else _ : P R.St Unit) s).2
  split
  · exact ⟨hf.refl _, hq⟩
  · split
    · exact ⟨hp.abort s.eng, hq⟩
    · rw [bind_snd]
      have h1 : U s.eng ((onEng (createCipher env.toEnv ctAlert s.eng.appEpoch false [1, 0]) :
        P R.St Unit) s).2.eng := hp.alert s.eng
      split
      · exact ⟨hf.trans _ _ _ h1 (hp.cancel _), hq⟩
      · exact ⟨h1, hq⟩

/-- Every call relates the engines. -/
theorem call_afr (ho : RoleOk R env keying) (hf : Frame env.toEnv U) (hk : KeyFrame env.toEnv U)
    (ha : AppFrame env.toEnv ok U) (hp : ApiFrame env.toEnv U) (s : Ses R.St) (hq : QOk ok s) (c : Call)
    (hl : ∀ n, c = .poll n → ∀ e m, U e (pollOutput n m e).2)
    (hc : ∀ d, c = .send d → ok d) :
    U s.eng (call R env s c).2.eng ∧ QOk ok (call R env s c).2 := by
  cases c with
  | packet p => exact handlePacketM_of hf (step_afr ho hf hk ha) hp.packet p s hq
  | timeout n => exact handleTimeoutM_of hf (step_afr ho hf hk ha) hp.timeout n s hq
  | send d => exact sendM_afr hf ha d (hc d rfl) s hq
  | close => exact closeM_afr hf hp s hq
  | poll n =>
    show U s.eng (pollM R n s).2.eng ∧ QOk ok (pollM R n s).2
    unfold pollM
    split
    · exact ⟨hf.refl _, hq⟩
    · exact ⟨hl n rfl _ _, hq⟩

theorem run_afr (ho : RoleOk R env keying) (hf : Frame env.toEnv U) (hk : KeyFrame env.toEnv U)
    (ha : AppFrame env.toEnv ok U) (hp : ApiFrame env.toEnv U) (hl : ∀ e b n, U e (pollOutput b n e).2)
    (cs : List Call) (hc : ∀ d, Call.send d ∈ cs → ok d) (s : Ses R.St) (hq : QOk ok s) :
    U s.eng (run R env s cs).2.eng ∧ QOk ok (run R env s cs).2 := by
  induction cs generalizing s with
  | nil => exact ⟨hf.refl _, hq⟩
  | cons c cs ih =>
    have h := call_afr ho hf hk ha hp s hq c (fun n _ e m => hl e n m) fun d hd => hc d (by simp [hd])
    unfold run
    dsimp only
    split
    · exact h
    · have g := ih (fun d hd => hc d (by simp [hd])) (call R env s c).2 h.2
      exact ⟨hf.trans _ _ _ h.1 g.1, g.2⟩

end calls
end Verif.E13

import Verif.Lemmas.Fresh13
/-!
# Send epochs and KeyUpdates of a DTLS 1.3 session
-/
namespace Verif.E13
open Verif Wire Window Timer Aead M
open Verif.E12 (Call)

/-- Rotations of the send keys. -/
def rots (l : List Ev) : Nat := l.countP fun e => match e with | .rotated _ => true | _ => false

/-- KeyUpdates sent. -/
def kus (l : List Ev) : Nat := l.countP fun e => match e with | .keyUpdate _ _ => true | _ => false

/-- Whether a KeyUpdate was sent after the last rotation. -/
def pend : List Ev → Bool
  | [] => false
  | .keyUpdate _ _ :: _ => true
  | .rotated _ :: _ => false
  | _ :: l => pend l

/-- KeyUpdates sent while another one was in flight. -/
def doubled : List Ev → Nat
  | [] => 0
  | .keyUpdate _ _ :: l => doubled l + (pend l).toNat
  | _ :: l => doubled l

/-- What is known of an event from those before it. -/
def Stepped : Ev → List Ev → Prop
  | .queued _ c ep _ _, l => c = ctAppData → ep = 3 + rots l
  | .keyUpdate ep _, l => ep = 3 + rots l
  | .rotated ep, l => ep = 3 + rots l ∧ pend l = true
  | _, _ => True

def AllStepped : List Ev → Prop
  | [] => True
  | e :: l => Stepped e l ∧ AllStepped l

/-- The log against epoch and flag. -/
structure RotOk (n : Nat) (ku : Bool) (l : List Ev) : Prop where
  epoch : n = 3 + rots l
  flag : ku = pend l
  all : AllStepped l

theorem rots_filter (l : List Ev) : rots (l.filter Ev.isTx) = rots l := by
  unfold rots
  rw [List.countP_filter]
  congr 1
  funext e
  cases e <;> rfl

theorem pend_filter (l : List Ev) : pend (l.filter Ev.isTx) = pend l := by
  induction l with
  | nil => rfl
  | cons e l ih =>
    rw [List.filter_cons]
    cases e <;> first | exact ih | rfl

theorem stepped_filter (e : Ev) (l : List Ev) : Stepped e (l.filter Ev.isTx) ↔ Stepped e l := by
  unfold Stepped
  split <;> simp [rots_filter, pend_filter]

theorem allStepped_filter (l : List Ev) : AllStepped (l.filter Ev.isTx) → AllStepped l := by
  induction l with
  | nil => exact fun h => h
  | cons e l ih =>
    rw [List.filter_cons]
    split
    · rintro ⟨h1, h2⟩
      exact ⟨(stepped_filter e l).mp h1, ih h2⟩
    · rename_i hn
      intro h
      refine ⟨?_, ih h⟩
      cases e <;> first | exact absurd rfl hn | trivial

theorem RotOk.filter {n : Nat} {ku : Bool} {l : List Ev} (h : RotOk n ku (l.filter Ev.isTx)) : RotOk n ku l :=
  ⟨by rw [← rots_filter]; exact h.epoch, by rw [← pend_filter]; exact h.flag, allStepped_filter l h.all⟩

/-- The account of KeyUpdates. -/
theorem kus_eq {l : List Ev} (h : AllStepped l) : kus l = rots l + doubled l + (pend l).toNat := by
  induction l with
  | nil => rfl
  | cons e l ih =>
    have hi := ih h.2
    cases e with
    | keyUpdate ep r =>
      have h1 : kus (.keyUpdate ep r :: l) = kus l + 1 := List.countP_cons_of_pos rfl
      have h2 : rots (.keyUpdate ep r :: l) = rots l := List.countP_cons_of_neg (by simp)
      rw [h1, h2]
      show _ = _ + (doubled l + (pend l).toNat) + 1
      omega
    | rotated ep =>
      have h1 : kus (.rotated ep :: l) = kus l := List.countP_cons_of_neg (by simp)
      have h2 : rots (.rotated ep :: l) = rots l + 1 := List.countP_cons_of_pos rfl
      rw [h1, h2]
      show _ = _ + doubled l + 0
      rw [h.1.2] at hi
      simp at hi
      omega
    | _ => exact hi

/-- By phase. -/
structure RotAt (p : Nat) (q : TxPart) : Prop where
  ok : RotOk q.appEpoch q.kuInFlight q.log
  early : p ≤ 1 → q.appSend = none ∧ rots q.log = 0

/-- Epochs of application data. -/
def RotG (_ : Cfg) (app : Nat) (c : UInt8) (ep : Nat) (_ : Bytes) : Prop := c = ctAppData → ep = app

theorem RotAt.other {p : Nat} {q q' : TxPart} {e : Ev} (h : RotAt p q) (h1 : q'.appEpoch = q.appEpoch)
    (h2 : q'.kuInFlight = q.kuInFlight) (h3 : q'.appSend = q.appSend) (h4 : q'.log = e :: q.log)
    (hr : ∀ l, rots (e :: l) = rots l) (hp : ∀ l, pend (e :: l) = pend l) (hs : Stepped e q.log) : RotAt p q' := by
  refine ⟨⟨?_, ?_, ?_⟩, fun hp => ?_⟩
  · rw [h1, h4, hr]; exact h.ok.epoch
  · rw [h2, h4, hp]; exact h.ok.flag
  · rw [h4]; exact ⟨hs, h.ok.all⟩
  · rw [h3, h4, hr]; exact h.early hp

theorem RotAt.same {p : Nat} {q q' : TxPart} (h : RotAt p q) (h1 : q'.appEpoch = q.appEpoch)
    (h2 : q'.kuInFlight = q.kuInFlight) (h3 : q'.appSend = q.appSend) (h4 : q'.log = q.log) : RotAt p q' := by
  refine ⟨?_, fun hp => ?_⟩
  · rw [h1, h2, h4]; exact h.ok
  · rw [h3, h4]; exact h.early hp

theorem rotAt_inv (env : Env) (p : Nat) : TxInv env (fun _ => True) (RotAt p) RotG where
  plain s c f h g _ _ := by
    rw [emitPlain_q]
    refine h.other (e := .queued none c 0 s.seq0 f) rfl rfl rfl rfl (fun _ => rfl) (fun _ => rfl) (fun hc => ?_)
    exact (g hc).trans h.ok.epoch
  sealed s k ep h := by
    rw [sealedSt_q]
    exact h.other (e := .sealed _ _ _ _) rfl rfl rfl rfl (fun _ => rfl) (fun _ => rfl) trivial
  cipher s c ep f suite tag k ct h g hep hs hr hm := by
    have h' : RotAt p (sealedSt s k ep).q := by
      rw [sealedSt_q]
      exact h.other (e := .sealed _ _ _ _) rfl rfl rfl rfl (fun _ => rfl) (fun _ => rfl) trivial
    have he : (sealedSt s k ep).q.appEpoch = s.appEpoch := rfl
    rw [emitCipher_q]
    obtain ⟨a1, a2, a3, a4, a5, hq⟩ := countSent_q (sealedSt s k ep) (s.slot ep) ep
    rw [hq]
    refine h'.other (e := .queued (some k) c ep _ f) rfl rfl rfl rfl (fun _ => rfl) (fun _ => rfl) (fun hc => ?_)
    exact (g hc).trans (he.symm.trans h'.ok.epoch)
  sealDg s h := h.same rfl rfl rfl rfl
  lost s h := ⟨h.ok, fun hp => ⟨rfl, (h.early hp).2⟩⟩
  rotate s cur new suite secret h hc hk _ _ _ _ := by
    have hp : ¬ p ≤ 1 := by
      intro hp
      have := (h.early hp).1
      rw [show s.q.appSend = _ from hc] at this
      cases this
    rw [rotateSend_q]
    have e1 : s.appEpoch = 3 + rots s.q.log := h.ok.epoch
    have e2 : s.kuInFlight = pend s.q.log := h.ok.flag
    refine ⟨⟨?_, rfl, ⟨⟨e1, by rw [← e2]; exact hk⟩, h.ok.all⟩⟩, fun h => absurd h hp⟩
    show s.appEpoch + 1 = 3 + rots (.rotated s.appEpoch :: s.q.log)
    have h2 : rots (.rotated s.appEpoch :: s.q.log) = rots s.q.log + 1 := List.countP_cons_of_pos rfl
    omega
  ackRec s ep f _ _ _ := fun h => absurd h (by decide)
  ku s r h := by
    have e1 : s.appEpoch = 3 + rots s.q.log := h.ok.epoch
    exact ⟨⟨e1, rfl, ⟨e1, h.ok.all⟩⟩, h.early⟩
  asked s h := h.same rfl rfl rfl rfl
  abort s h := h.same rfl rfl rfl rfl
  hs s ep f tag _ _ _ := fun h => absurd h (by decide)
  kuRec s n r _ := fun h => absurd h (by decide)
  alertRec s _ := fun h => absurd h (by decide)
  dataRec s d _ _ := fun _ => rfl

/-- What holds throughout. -/
def Rot (e : Eng) : Prop := RotOk e.appEpoch e.kuInFlight e.log

theorem RotAt.rot {p : Nat} {e : Eng} (h : TxOk (RotAt p) RotG e) : Rot e := h.q.ok.filter

theorem rotAt_phases (env : Env) : Phases env (fun p e => TxOk (RotAt p) RotG e) (fun _ e => Rot e) :=
  phases_tx (fun p _ => rotAt_inv env p) (fun _ _ _ _ h => h.same rfl rfl rfl rfl)
    (fun _ _ _ b _ h _ => h.other (e := .sent b) rfl rfl rfl rfl (fun _ => rfl) (fun _ => rfl) trivial)
    (fun _ h => h.same rfl rfl rfl rfl) (fun _ _ _ h => RotAt.rot h)

theorem rotAt_hs {env : Env} (e : Eng) (a b : Bytes) (h : TxOk (RotAt 0) RotG e) :
    wp (installHandshakeKeys env a b) e (fun _ e => TxOk (RotAt 1) RotG e) (fun _ e => Rot e) :=
  wp_installHandshakeKeys (fun _ _ _ _ _ _ => ⟨⟨h.q.ok, fun _ => h.q.early (by decide)⟩, h.g, h.r⟩)
    (fun _ _ => RotAt.rot h) (fun _ _ _ => (RotAt.rot h : RotOk ..))

theorem rotAt_appKeys {env : Env} (e : Eng) (a b : Bytes) (h : TxOk (RotAt 1) RotG e) :
    wp (installApplicationKeys env a b) e (fun _ e => TxOk (RotAt 2) RotG e) (fun _ e => Rot e) := by
  have h3 : e.appEpoch = 3 := by
    have : e.appEpoch = 3 + rots e.q.log := h.q.ok.epoch
    rw [(h.q.early (by decide)).2] at this
    exact this
  refine wp_installApplicationKeys (fun suite ks kr _ _ _ _ => ⟨⟨?_, nofun⟩, ?_, h.r⟩) (fun _ _ => RotAt.rot h)
    (fun _ _ _ => (RotAt.rot h : RotOk ..))
  · have := h.q.ok
    rw [show e.q.appEpoch = 3 from h3] at this
    exact this
  · have := h.g
    rw [h3] at this
    exact this

theorem RotAt.up {p r : Nat} {q : TxPart} (h : RotAt p q) (h1 : 2 ≤ r) : RotAt r q := ⟨h.ok, fun h => by omega⟩

theorem rotAt_enable {env : Env} {p : Nat} (e : Eng) (h : TxOk (RotAt p) RotG e) :
    wp (enablePeerEncryption env) e (fun _ e => TxOk (RotAt p) RotG e) (fun _ e => Rot e) := by
  have := enablePeerEncryption_tx (rotAt_inv env p).toTxCore h
  exact wp_of (fun _ _ he => by rw [he] at this; exact this) (fun _ _ he => by rw [he] at this; exact RotAt.rot this)

theorem rotAt_client (env : Env) : CCare env (fun p e => TxOk (RotAt p) RotG e) (fun _ e => Rot e)
    (fun e => TxOk (RotAt 1) RotG e) where
  toPhases := rotAt_phases env
  hs := rotAt_hs
  enable := rotAt_enable
  weak1 _ h := RotAt.rot h
  appKeys := rotAt_appKeys
  release _ h := ⟨h.q.up (by decide), h.g, h.r⟩

theorem rotAt_server (env : Env) : SCare env (fun p e => TxOk (RotAt p) RotG e) (fun _ e => Rot e)
    (fun e => TxOk (RotAt 2) RotG e) where
  toPhases := rotAt_phases env
  hs := rotAt_hs
  enable := rotAt_enable
  appKeys := rotAt_appKeys
  release _ h := ⟨h.q.up (by decide), h.g, h.r⟩

variable {env : PEnv} {cfg : Cfg} {R : Role} {s0 : Ses R.St}

theorem Start.rotAt0 (h : Start env cfg R s0) : TxOk (RotAt 0) RotG s0.eng := by
  obtain ⟨n, _, hq⟩ := h.q0
  obtain ⟨g1, g2, _, _⟩ := h.saved0
  refine ⟨?_, ?_, ?_⟩
  · rw [hq]
    exact ⟨⟨rfl, rfl, trivial⟩, fun _ => ⟨rfl, rfl⟩⟩
  · rw [g1]; exact fun _ he => nomatch he
  · rw [g2]; simp

/-- Epochs, rotations and KeyUpdates agree throughout. -/
theorem Start.rot (h : Start env cfg R s0) (cs : List Call) (ha : Careful R env s0 cs) :
    Rot (run R env s0 cs).2.eng :=
  h.care (rotAt_client env.toEnv) (rotAt_server env.toEnv) (fun _ _ _ h => h) (fun _ _ _ h => h)
    (fun _ _ h => RotAt.rot h) (fun _ _ h => RotAt.rot h) h.rotAt0 h.rotAt0 cs ha

end Verif.E13

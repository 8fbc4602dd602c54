import Verif.Lemmas.Parse13
import Verif.Lemmas.Marks12
import Verif.Lemmas.Hist13
import Verif.Lemmas.Walk13
/-!
# Application data and alerts on the transmit queue, DTLS 1.3

What the application and `close` put on the transmit queue, and that nothing else does.
-/
namespace Verif.E13
open Verif Wire Window Timer Aead M
open Verif.E12 (Call isMark)

/-- Type and content of the application data and alert records put on the transmit queue, newest
first. -/
def marks : List Ev → List (UInt8 × Bytes)
  | [] => []
  | .queued _ c _ _ p :: l => if isMark c then (c, p) :: marks l else marks l
  | _ :: l => marks l

theorem marks_isTx (l : List Ev) : marks (l.filter Ev.isTx) = marks l := by
  induction l with
  | nil => rfl
  | cons e l ih => cases e <;> simp [List.filter_cons, Ev.isTx, marks, ih]

/-- The marks are `L`, and nothing but handshake and ACK is kept for retransmission. -/
abbrev Noted (L : List (UInt8 × Bytes)) : Eng → Prop :=
  TxOk (fun q => marks q.log = L) (fun _ _ c _ _ => isMark c = false)

theorem Noted.marks {L : List (UInt8 × Bytes)} {e : Eng} (h : Noted L e) : E13.marks e.log = L :=
  (marks_isTx _).symm.trans h.q

theorem at_hs (env : Env) (L : List (UInt8 × Bytes)) :
    TxHs env (fun q => marks q.log = L) (fun _ _ c _ _ => isMark c = false) where
  plain s c f h g _ _ := by
    rw [emitPlain_q]
    show (if isMark c then _ else marks s.q.log) = L
    rw [g]; exact h
  sealed s k ep h := by rw [sealedSt_q]; exact h
  cipher s c ep f suite tag k ct h g _ _ _ _ := by
    rw [emitCipher_q]
    obtain ⟨_, _, _, _, _, hc⟩ := countSent_q (sealedSt s k ep) (s.slot ep) ep
    rw [hc, sealedSt_q]
    show (if isMark c then _ else marks s.q.log) = L
    rw [g]; exact h
  sealDg _ h := h
  lost _ h := h
  rotate s cur new suite secret h _ _ _ _ _ _ := by rw [rotateSend_q]; exact h
  ackRec _ _ _ _ _ _ := by decide
  asked _ h := h
  abort _ h := h
  hs _ _ _ _ _ _ _ := by decide
  kuRec _ _ _ _ := by decide

theorem at_frame (env : Env) (L) : Frame env (Keeps (Noted L)) := (at_hs env L).frame (fun _ _ h => h)

theorem at_keyFrame (env : Env) (L) : KeyFrame env (Keeps (Noted L)) :=
  keyFrame_of (at_hs env L) (fun _ _ h => h) (fun _ h => h) (fun _ _ h => h) (fun _ h => h) (fun _ _ _ _ _ _ h => h)

/-- A record of the application or of `close`. -/
theorem createCipher_mark (env : Env) {L} (c : UInt8) (ep : Nat) (f : Bytes) {e : Eng} (h : Noted L e) (hc : isMark c = true) :
    wp (createCipher env c ep false f) e
      (fun _ e' => Noted ((c, f) :: L) e' ∧ e'.appEpoch = e.appEpoch)
      (fun x e' => x ≠ .transient ∧ x ≠ .diverge ∧ Noted L e' ∧ e'.appEpoch = e.appEpoch) := by
  have hap := createCipher_appEpoch env c ep false f e
  have hw : wp (createCipher env c ep false f) e (fun _ e' => Noted ((c, f) :: L) e')
      (fun x e' => x ≠ .transient ∧ x ≠ .diverge ∧ Noted L e') := by
    have key : match createCipher env c ep false f e with
        | (.ok _, e') => Noted ((c, f) :: L) e'
        | (.fail x, e') => x ≠ .transient ∧ x ≠ .diverge ∧ Noted L e' := by
     refine createCipher_ind (motive := fun r => match r with
      | (.ok _, e') => Noted ((c, f) :: L) e'
      | (.fail x, e') => x ≠ .transient ∧ x ≠ .diverge ∧ Noted L e') env c ep false f e ?_ ?_ ?_ ?_
     · intro hx; cases hx
     · intro flt hf _
       refine ⟨?_, ?_, h.rx rfl rfl rfl⟩ <;> rcases hf with rfl | rfl <;> simp
     · intro suite tag k ct flt _ _ hf
       refine ⟨?_, ?_, ?_⟩
       · rcases hf with rfl | rfl <;> simp
       · rcases hf with rfl | rfl <;> simp
       · exact ⟨(by rw [sealedSt_q]; exact h.q), h.g, h.r⟩
     · intro suite tag k ct hs _ _ _
       obtain ⟨g1, g2, g3, g4⟩ := emitCipher_frame env (sealedSt (savedAs e false (entryOf e c ep f)) k ep) suite (e.slot ep) k c ep
         (canAppend e (5 + ct.length)) f ct
       refine ⟨?_, ?_, ?_⟩
       · rw [emitCipher_q]
         obtain ⟨_, _, _, _, _, hq⟩ := countSent_q (sealedSt (savedAs e false (entryOf e c ep f)) k ep) (e.slot ep) ep
         rw [hq, sealedSt_q]
         show (if isMark c then (c, f) :: marks e.q.log else _) = _
         rw [hc, if_pos rfl, show marks e.q.log = L from h.q]
       · intro x hx
         rw [g3] at hx
         exact h.g x hx
       · rw [g4]; exact h.r
    unfold wp
    revert key
    generalize createCipher env c ep false f e = r
    obtain ⟨r, e'⟩ := r
    cases r <;> exact id
  revert hap hw
  unfold wp
  generalize createCipher env c ep false f e = r
  obtain ⟨r, e'⟩ := r
  intro hap hw
  cases r with
  | ok => exact ⟨hw, hap⟩
  | fail x => exact ⟨hw.1, hw.2.1, hw.2.2, hap⟩

/-! ## What an engine does on its own -/

theorem noted_packet (env : Env) (L) (e : Eng) (p : Bytes) (h : Noted L e) : Noted L (parsePacket env p e).2 :=
  parsePacket_tx (at_hs env L).toTxCore h p

theorem noted_timeout (env : Env) (L) (e : Eng) (n : Nat) (h : Noted L e) : Noted L (handleTimeout env n e).2 :=
  handleTimeout_tx (at_hs env L).toTxCore h n

theorem noted_poll (L) (e : Eng) (b n : Nat) (h : Noted L e) : Noted L (pollOutput b n e).2 :=
  pollOutput_tx (fun _ _ _ h _ => h) h b n

/-- All a connected session does apart from sending data. -/
theorem noted_app (env : Env) (L) : AppFrame env (fun _ => False) (Keeps (Noted L)) where
  data _ _ h := h.elim
  asked _ h := ⟨h.q, h.g, h.r⟩
  keyUpdate _ h := createKeyUpdate_tx (at_hs env L) h _ fun _ h _ _ _ => h
  auto e _ _ h := createKeyUpdate_tx (s := { e with needsKu := false }) (at_hs env L) ⟨h.q, h.g, h.r⟩ _ fun _ h _ _ _ => h
  newRecv _ h := updateRecvKeys_tx h
  ack _ h := sendAck_tx (at_hs env L).toTxCore h

theorem noted_cancel (L) (e : Eng) (h : Noted L e) : Noted L (cancelFlights e) :=
  ⟨h.q, fun _ hx => (nomatch hx), h.r⟩

theorem noted_abort (L) (e : Eng) (h : Noted L e) : Noted L (abort e) :=
  ⟨h.q, fun _ hx => (nomatch hx), h.r⟩

/-! ## What the states do -/

section
variable {R : Role} {env : PEnv} {k : R.St → Bool}

theorem noteTime_noted (L) (n : Nat) (s : Ses R.St) (h : Noted L s.eng) :
    Noted L (noteTime R env n s).eng ∧ (noteTime R env n s).queued = s.queued ∧ (noteTime R env n s).st = s.st := by
  obtain ⟨h1, h2, h3⟩ := noteTime_eng (env := env) n s (at_frame env.toEnv L)
  exact ⟨h1 h, h2, h3⟩

theorem pollM_noted (L) (n : Nat) (s : Ses R.St) (h : Noted L s.eng) :
    Noted L (pollM R n s).2.eng ∧ (pollM R n s).2.queued = s.queued ∧ (pollM R n s).2.st = s.st := by
  unfold pollM
  split
  · exact ⟨h, rfl, rfl⟩
  · exact ⟨noted_poll L _ _ _ h, rfl, rfl⟩

/-- All a state other than the connected one does. -/
theorem step_noted (ho : RoleOk R env k) (L) (s : Ses R.St) (h : Noted L s.eng) (hn : s.st ≠ R.app) :
    Noted L (R.step env s.st s).2.eng ∧ (R.step env s.st s).2.queued = s.queued ∧
      (R.step env s.st s).2.st = s.st := by
  have hfr : Fr (Keeps (Noted L)) (R.step env s.st) := by
    by_cases h2 : s.st = R.halfClosed
    · rw [h2, ho.half]
      exact halfClosedLocal_fr (at_frame env.toEnv L) (noted_app env.toEnv L).newRecv _ _
    · exact ho.fr (at_frame env.toEnv L) s.st hn h2 fun _ => at_keyFrame env.toEnv L
  obtain ⟨h1, h2, h3⟩ := hfr s
  exact ⟨h1 h, h2, h3⟩

/-- Application data records for payloads, newest first. -/
def dataMarks (l : List Bytes) : List (UInt8 × Bytes) := (l.map fun d => (ctAppData, d)).reverse

theorem drainLoop_noted {St : Type} (l : List Bytes) (L) (s : Ses St) (h : Noted L s.eng) :
    wp (drainLoop env s.eng.appEpoch l) s
      (fun _ s' => s'.st = s.st ∧ s'.queued = s.queued ∧ Noted (dataMarks l ++ L) s'.eng)
      (fun f s' => f ≠ .transient ∧ s'.st = s.st ∧ s'.queued = s.queued ∧
        ∃ pre, pre <+: l ∧ Noted (dataMarks pre ++ L) s'.eng) := by
  induction l generalizing s L with
  | nil => exact ⟨rfl, rfl, h⟩
  | cons d rest ih =>
    unfold drainLoop sendApp
    simp only [bind_eq, wp_bind, wp_onEng]
    refine wp_mono (createCipher_mark env.toEnv ctAppData s.eng.appEpoch d h (by decide)) ?_ ?_
    · rintro _ e ⟨h1, h2⟩
      have := ih ((ctAppData, d) :: L) { s with eng := e } h1
      dsimp only at this
      rw [h2] at this
      refine wp_mono this ?_ ?_
      · rintro _ s' ⟨g1, g2, g3⟩
        refine ⟨g1, g2, ?_⟩
        simpa [dataMarks] using g3
      · rintro f s' ⟨g0, g1, g2, pre, hp, g3⟩
        refine ⟨g0, g1, g2, d :: pre, List.cons_prefix_cons.2 ⟨rfl, hp⟩, ?_⟩
        simpa [dataMarks] using g3
    · rintro f e ⟨h1, _, h2, _⟩
      exact ⟨h1, (by trivial), (by trivial), [], List.nil_prefix, h2⟩

theorem createKeyUpdate_lasting (env : Env) (r : Bool) (e : Eng) :
    wp (createKeyUpdate env r) e (fun _ _ => True) (fun f _ => f ≠ .transient) := by
  unfold createKeyUpdate
  simp only [wp_bind, wp_modify, wp_get]
  split
  · show Fault.panic ≠ _; simp
  · simp only [wp_bind, wp_modify]
    generalize ({ flightBegin env e with nextSeq := (flightBegin env e).nextSeq + 1 } : Eng) = t
    generalize (flightBegin env e).appEpoch = ep
    generalize keyUpdateMsg (flightBegin env e).nextSeq r = f
    have key : ∀ x u, createCipher env ctHandshake ep true f t = (.fail x, u) → x ≠ .transient := by
      refine createCipher_ind (motive := fun o => ∀ x u, o = (.fail x, u) → x ≠ .transient) env ctHandshake ep true f t ?_ ?_ ?_ ?_
      · rintro _ _ x u ⟨⟩; simp
      · rintro flt hf _ x u ⟨⟩; rcases hf with rfl | rfl <;> simp
      · rintro _ _ _ _ flt _ _ hf x u ⟨⟩; rcases hf with rfl | rfl <;> simp
      · intro _ _ _ _ _ _ _ _ x u hx
        exact absurd (congrArg Prod.fst hx) (by simp)
    exact wp_of (fun _ _ _ => trivial) fun x u hx => key x u hx

theorem autoKeyUpdate_noted {St : Type} (L) (s : Ses St) (h : Noted L s.eng) :
    wp (autoKeyUpdate env) s (fun _ s' => Noted L s'.eng ∧ s'.queued = s.queued ∧ s'.st = s.st)
      (fun f s' => f ≠ .transient ∧ Noted L s'.eng ∧ s'.queued = s.queued ∧ s'.st = s.st) := by
  have h1 := autoKeyUpdate_fr (St := St) (env := env) (at_frame env.toEnv L) (noted_app env.toEnv L) s
  have h2 : wp (autoKeyUpdate env) s (fun _ _ => True) (fun f _ => f ≠ .transient) := by
    unfold autoKeyUpdate
    simp only [bind_eq, pure_eq, wp_bind, wp_get]
    split
    · simp only [wp_bind, wp_onEng']
      split
      · trivial
      · rw [wp_onEng]; exact createKeyUpdate_lasting ..
    · trivial
  revert h1 h2
  unfold wp
  generalize autoKeyUpdate env s = r
  obtain ⟨r, s'⟩ := r
  rintro ⟨h1, h2, h3⟩ h4
  cases r with
  | ok => exact ⟨h1 h, h2, h3⟩
  | fail f => exact ⟨h4, h1 h, h2, h3⟩

/-- All the connected state does. -/
theorem app_noted {St : Type} (L) (a : St) (s : Ses St) (h : Noted L s.eng) :
    wp (awaitApplicationData env a) s
      (fun new s' => new = a ∧ s'.st = s.st ∧ s'.queued = [] ∧ Noted (dataMarks s.queued ++ L) s'.eng)
      (fun f s' => s'.st = s.st ∧
        ((f ≠ .transient ∧ s'.queued = s.queued ∧ Noted L s'.eng) ∨
         (s'.queued = [] ∧ ∃ pre, pre <+: s.queued ∧ (f = .transient → pre = s.queued) ∧
           Noted (dataMarks pre ++ L) s'.eng))) := by
  unfold awaitApplicationData
  simp only [bind_eq, pure_eq, wp_bind]
  refine wp_mono (autoKeyUpdate_noted L s h) ?_ ?_
  · rintro _ s1 ⟨h1, h2, h3⟩
    have hd := drainLoop_noted (env := env) s1.queued L { s1 with queued := [] } h1
    have hd' : wp (drainQueued env) s1
        (fun _ s' => s'.st = s1.st ∧ s'.queued = [] ∧ Noted (dataMarks s1.queued ++ L) s'.eng)
        (fun f s' => f ≠ .transient ∧ s'.st = s1.st ∧ s'.queued = [] ∧
          ∃ pre, pre <+: s1.queued ∧ Noted (dataMarks pre ++ L) s'.eng) := hd
    refine wp_mono hd' ?_ ?_
    · rintro _ s2 ⟨g1, g2, g3⟩
      rw [h2] at g3
      have hr := respondKeyUpdate_fr (St := St) (env := env) (at_frame env.toEnv (dataMarks s.queued ++ L))
        (noted_app env.toEnv _) s2
      have key : ∀ (m : P St Unit) (s2 : Ses St),
          Fr (Keeps (Noted (dataMarks s.queued ++ L))) m → s2.st = s.st → s2.queued = [] →
          Noted (dataMarks s.queued ++ L) s2.eng →
          wp m s2 (fun _ t => t.st = s.st ∧ t.queued = [] ∧ Noted (dataMarks s.queued ++ L) t.eng)
            (fun _ t => t.st = s.st ∧ t.queued = [] ∧ Noted (dataMarks s.queued ++ L) t.eng) := by
        intro m s2 hm k1 k2 k3
        obtain ⟨a1, a2, a3⟩ := hm s2
        exact to_wp (R := fun t : Ses St => t.st = s.st ∧ t.queued = [] ∧ Noted (dataMarks s.queued ++ L) t.eng)
          ⟨a3.trans k1, a2.trans k2, a1 k3⟩
      refine wp_mono (key _ s2 (respondKeyUpdate_fr (at_frame env.toEnv _) (noted_app env.toEnv _))
        (g1.trans h3) g2 g3) ?_ ?_
      · rintro _ s3 ⟨k1, k2, k3⟩
        refine wp_mono (key _ s3 (takeKeyUpdate_fr (at_frame env.toEnv _) (noted_app env.toEnv _)) k1 k2 k3) ?_ ?_
        · rintro _ s4 ⟨m1, m2, m3⟩
          exact ⟨rfl, m1, m2, m3⟩
        · rintro f s4 ⟨m1, m2, m3⟩
          exact ⟨m1, .inr ⟨m2, s.queued, List.prefix_refl _, fun _ => rfl, m3⟩⟩
      · rintro f s3 ⟨k1, k2, k3⟩
        exact ⟨k1, .inr ⟨k2, s.queued, List.prefix_refl _, fun _ => rfl, k3⟩⟩
    · rintro f s2 ⟨g0, g1, g2, pre, hp, g3⟩
      exact ⟨g1.trans h3, .inr ⟨g2, pre, h2 ▸ hp, fun hf => absurd hf g0, g3⟩⟩
  · rintro f s1 ⟨h0, h1, h2, h3⟩
    exact ⟨h3, .inl ⟨h0, h2, h1⟩⟩

end
end Verif.E13

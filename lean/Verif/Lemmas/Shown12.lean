import Verif.Lemmas.Hist12
import Verif.Lemmas.Rx12
/-!
# What a DTLS 1.2 session outputs

`Shape` ties the outputs so far to the state: which outputs were given, when Connected was queued,
when the close was reported.
-/
namespace Verif.E12
open Verif Wire Window Timer Aead M

/-! ## Arriving datagrams -/

/-- Events of receiving and of sending. -/
def Ev.isWork : Ev → Bool
  | .sealed .. => true
  | .queued .. => true
  | .opened .. => true
  | _ => false

/-- What an arriving datagram can change. -/
def Arrive (s s' : Eng) : Prop :=
  ∃ tx a b sv t rx rp cf cr es, (∀ e ∈ es, Ev.isWork e = true) ∧ (s.closeRecv = true → cr = true) ∧
    s' = { s with tx := tx, seq0 := a, seqN := b, saved := sv, tick := t, rx := rx, replay := rp,
                  confirmed := cf, closeRecv := cr, log := es ++ s.log }

theorem Arrive.refl (s : Eng) : Arrive s s :=
  ⟨s.tx, s.seq0, s.seqN, s.saved, s.tick, s.rx, s.replay, s.confirmed, s.closeRecv, [], by simp, id, rfl⟩

theorem Arrive.trans {a b c : Eng} (h : Arrive a b) (g : Arrive b c) : Arrive a c := by
  obtain ⟨_, _, _, _, _, _, _, _, _, es, he, hc, rfl⟩ := h
  obtain ⟨x1, x2, x3, x4, x5, x6, x7, x8, x9, es', he', hc', rfl⟩ := g
  refine ⟨x1, x2, x3, x4, x5, x6, x7, x8, x9, es' ++ es, ?_, fun h => hc' (hc h), by simp⟩
  intro e hm
  rcases List.mem_append.mp hm with hm | hm
  · exact he' e hm
  · exact he e hm

theorem SendFrame.arrive {s s' : Eng} (h : SendFrame s s') : Arrive s s' := by
  obtain ⟨tx, a, b, sv, t, es, he, rfl⟩ := h
  refine ⟨tx, a, b, sv, t, s.rx, s.replay, s.confirmed, s.closeRecv, es, ?_, id, rfl⟩
  intro e hm
  have := he e hm
  cases e <;> simp_all [Ev.isSend, Ev.isWork]

theorem openRecord_close (env : Env) (sl : Bytes) (r : Rec12) (s : Eng) :
    (openRecord env sl r s).2.closeRecv = s.closeRecv := by
  unfold openRecord
  dsimp only
  repeat' split
  all_goals rfl

theorem recordParse_close (env : Env) (sl : Bytes) (s : Eng) :
    (recordParse env sl s).2.closeRecv = s.closeRecv := by
  unfold recordParse
  repeat' split
  all_goals first | rfl | exact openRecord_close ..

theorem parseSlices_close (env : Env) (l : List Bytes) (e : SplitEnd) (acc : List Rx) (s : Eng) :
    (parseSlices env l e acc s).2.closeRecv = s.closeRecv := by
  induction l generalizing acc s with
  | nil => cases e <;> rfl
  | cons sl rest ih =>
    unfold parseSlices
    rw [bind_snd]
    have h := recordParse_close env sl s
    split
    · split
      · rw [ih]; exact h
      · split
        · exact h
        · rw [ih]; exact h
    · exact h

theorem classify_close (r : Rx) (s : Eng) (h : s.closeRecv = true) :
    (classify r s).2.closeRecv = true := by
  unfold classify classifyAlert
  repeat' split
  all_goals first | exact h | rfl

theorem classifyAll_close (l acc : List Rx) (s : Eng) (h : s.closeRecv = true) :
    (classifyAll l acc s).2.closeRecv = true := by
  induction l generalizing acc s with
  | nil => exact h
  | cons r rest ih =>
    unfold classifyAll
    rw [bind_snd]
    have hc := classify_close r s h
    split
    · split
      · exact ih _ _ hc
      · exact ih _ _ hc
    · exact hc

theorem recordsParse_close (env : Env) (p : Bytes) (s : Eng) (h : s.closeRecv = true) :
    (recordsParse env p s).2.closeRecv = true := by
  unfold recordsParse
  rw [bind_snd]
  have hp := parseSlices_close env (split12 p).1 (split12 p).2 [] s
  split
  · exact classifyAll_close _ _ _ (hp.trans h)
  · exact hp.trans h

theorem recordsParse_arrive (env : Env) (p : Bytes) (s : Eng) : Arrive s (recordsParse env p s).2 := by
  obtain ⟨rp, cf, cr, es, he, h⟩ := recordsParse_frame env p s
  refine ⟨s.tx, s.seq0, s.seqN, s.saved, s.tick, s.rx, rp, cf, cr, es, ?_, ?_, h⟩
  · intro e hm
    have := he e hm
    cases e <;> simp_all [Ev.isOpened, Ev.isWork]
  · intro hc
    have := recordsParse_close env p s hc
    rw [h] at this
    exact this

theorem insertIncoming_arrive (env : Env) (rs : List Rx) (s : Eng) :
    Arrive s (insertIncoming env rs s).2 := by
  have quick : ∀ (s : Eng) rx t, Arrive s { s with rx := rx, tick := t } := fun s rx t =>
    ⟨s.tx, s.seq0, s.seqN, s.saved, t, rx, s.replay, s.confirmed, s.closeRecv, [], by simp, id, rfl⟩
  unfold insertIncoming
  split
  · exact .refl s
  split
  · exact .refl s
  split
  · rw [bind_snd]
    rename_i r rest _ _ _ _
    have hm := (maybeResend_frame env (r :: rest) s).arrive
    split
    · refine Arrive.trans hm ?_
      unfold insertHandshakeTail insertHs
      dsimp only
      repeat' split
      all_goals first
        | exact .refl _
        | exact quick _ _ _
    · exact hm
  · unfold insertNonHandshake insertBySeq
    dsimp only
    repeat' split
    all_goals first
      | exact .refl _
      | exact quick _ _ _

theorem parsePacket_arrive (env : Env) (p : Bytes) (s : Eng) : Arrive s (parsePacket env p s).2 := by
  unfold parsePacket
  rw [bind_snd]
  have h := recordsParse_arrive env p s
  split
  · split
    · exact h
    · exact h.trans (insertIncoming_arrive ..)
  · exact h

theorem reparse_arrive (env : Env) (l : List Bytes) (s : Eng) : Arrive s (reparse env l s).2 := by
  induction l generalizing s with
  | nil => exact .refl s
  | cons b rest ih =>
    unfold reparse
    rw [bind_snd]
    split
    · exact (parsePacket_arrive env b s).trans (ih _)
    · exact parsePacket_arrive env b s

theorem enablePeer_arrive (env : Env) (s : Eng) :
    Arrive { s with peerEnc := true } (enablePeerEncryption env s).2 := by
  unfold enablePeerEncryption
  dsimp only
  split
  · exact .refl _
  · refine Arrive.trans ?_ (reparse_arrive ..)
    exact ⟨s.tx, s.seq0, s.seqN, s.saved, s.tick, _, s.replay, s.confirmed, s.closeRecv, [], by simp, id, rfl⟩

/-- What arrival shows: the close flag may have been set. -/
theorem Arrive.shown {St : Type} {s : Ses St} {e : Eng} (h : Arrive s.eng e) :
    ∃ c, (s.eng.closeRecv = true → c = true) ∧
      E12.shown { s with eng := e } = { E12.shown s with closeRecv := c } := by
  obtain ⟨_, _, _, _, _, _, _, _, cr, es, he, hc, rfl⟩ := h
  refine ⟨cr, hc, ?_⟩
  have : es.filter Ev.isOut = [] := by
    rw [List.filter_eq_nil_iff]
    intro e he'
    have := he e he'
    cases e <;> simp_all [Ev.isWork, Ev.isOut]
  simp [E12.shown, List.filter_append, this]

/-! ## Moves -/

/-- How one call of the step function changes what is shown. `post` are the states after
change_cipher_spec. -/
inductive Move {St : Type} (app closed : St) (post : St → Bool) (st new : St) (a : Shown) : Shown → Prop
  | same (h1 : new = app → st = app) (h2 : post new = true → post st = true)
      (h3 : st = app → new = app ∨ new = closed) (h4 : st = closed → new = closed) :
      Move app closed post st new a a
  | cert (h1 : new ≠ app) (h2 : post new = true → post st = true) (h3 : st ≠ app)
      (h4 : st ≠ closed) : Move app closed post st new a { a with events := a.events ++ [.peerCert] }
  | ccs (h1 : new ≠ app) (h3 : st ≠ app) (h4 : st ≠ closed) (c : Bool)
      (hc : a.closeRecv = true → c = true) :
      Move app closed post st new a { a with peerEnc := true, closeRecv := c }
  | connect (h1 : new = app) (h2 : post st = true) (h3 : st ≠ app) (h4 : st ≠ closed)
      (l : List Event) (hl : .connected ∉ l) :
      Move app closed post st new a { a with release := true, events := a.events ++ .connected :: l }

/-- The step function of a role makes moves; failing it stays in its state. -/
structure ShowRule (R : Role) (env : PEnv) (post : R.St → Bool) : Prop where
  app : post R.app = true
  closed : post R.closed = false
  ne : R.app ≠ R.closed
  step : ∀ s, wp (R.step env s.st) s (fun new s' => Move R.app R.closed post s.st new (shown s) (shown s'))
    (fun _ s' => s'.st = s.st ∧ Move R.app R.closed post s.st s.st (shown s) (shown s'))

/-! ## Histories -/

/-- The output that goes with an event. -/
def Ev.out : Ev → Option Out
  | .delivered r _ => some (.appData r.fragment)
  | .sent d => some (.packet d)
  | _ => none

/-- Data and packets among the outputs. -/
def Output.wire : Output → Option Out
  | .eng (.appData b) => some (.appData b)
  | .eng (.packet b) => some (.packet b)
  | _ => none

/-- The outputs so far fit the state. -/
structure Shape (R : Role) (post : R.St → Bool) (os : List Output) (st : R.St) (a : Shown) : Prop where
  outs : os.filterMap Output.wire = (a.outs.filterMap Ev.out).reverse
  conn : os.count .connected + a.events.count .connected = if a.release then 1 else 0
  rel : a.release = true → st = R.app ∨ st = R.closed
  app : st = R.app → a.release = true
  post : post st = true → a.peerEnc = true
  enc : a.release = true → a.peerEnc = true
  before : ∀ l b l', os = l ++ .eng (.appData b) :: l' → .connected ∈ l
  close : os.count (.eng .closeNotify) = if a.closeReported then 1 else 0
  reported : a.closeReported = true → a.closeRecv = true
  foreign : ∀ r, Ev.delivered r false ∈ a.outs → r.epoch ≥ 2

section shape
variable {R : Role} {post : R.St → Bool} {os : List Output} {st new : R.St} {a b : Shown}

theorem Shape.move (h : Shape R post os st a) (m : Move R.app R.closed post st new a b) : Shape R post os new b := by
  cases m with
  | same h1 h2 h3 h4 =>
    refine { h with rel := ?_, app := fun g => h.app (h1 g), post := fun g => h.post (h2 g) }
    intro g
    rcases h.rel g with rfl | rfl
    · exact h3 rfl
    · exact .inr (h4 rfl)
  | cert h1 h2 h3 h4 =>
    have hr : a.release = false := by
      cases hr : a.release
      · rfl
      · rcases h.rel hr with g | g
        · exact absurd g h3
        · exact absurd g h4
    refine { h with rel := fun g => ?_, app := fun g => absurd g h1, post := fun g => h.post (h2 g), conn := ?_ }
    rotate_left
    · simp [hr] at g
    · have := h.conn
      simpa [List.count_append] using this
  | ccs h1 h3 h4 c hc =>
    have hr : a.release = false := by
      cases hr : a.release
      · rfl
      · rcases h.rel hr with g | g
        · exact absurd g h3
        · exact absurd g h4
    refine { h with rel := ?_, app := fun g => absurd g h1, post := fun _ => rfl, enc := fun _ => rfl,
                    reported := fun g => hc (h.reported g) }
    intro g; simp [hr] at g
  | connect h1 h2 h3 h4 l hl =>
    have hr : a.release = false := by
      cases hr : a.release
      · rfl
      · rcases h.rel hr with g | g
        · exact absurd g h3
        · exact absurd g h4
    have hp := h.post h2
    refine { h with rel := fun _ => .inl h1, app := fun _ => rfl, post := fun _ => hp, enc := fun _ => hp,
                    conn := ?_ }
    have := h.conn
    simp [hr] at this
    simp [List.count_append, List.count_eq_zero.mpr hl, this]

theorem Shape.arrive (h : Shape R post os st a) {c : Bool} (hc : a.closeRecv = true → c = true) :
    Shape R post os st { a with closeRecv := c } :=
  { h with reported := fun g => hc (h.reported g) }

end shape

/-- The history invariant. -/
def Hist (R : Role) (post : R.St → Bool) (os : List Output) (s : Ses R.St) : Prop :=
  Shape R post os s.st (shown s)

theorem before_snoc {os : List Output} {o : Output} (h : ∀ l b l', os = l ++ .eng (.appData b) :: l' → .connected ∈ l)
    (ho : ∀ b, o = .eng (.appData b) → .connected ∈ os) :
    ∀ l b l', os ++ [o] = l ++ .eng (.appData b) :: l' → .connected ∈ l := by
  intro l b l' he
  rcases List.eq_nil_or_concat l' with rfl | ⟨l'', x, rfl⟩
  · have := List.append_inj' he rfl
    obtain ⟨rfl, h2⟩ := this
    exact ho b (by simpa using h2)
  · rw [List.concat_eq_append, ← List.cons_append, ← List.append_assoc] at he
    exact h l b l'' (List.append_inj' he rfl).1

theorem hist_poll {R : Role} {post : R.St → Bool} {os : List Output} (n : Nat) (s : Ses R.St)
    (hi : RxInv s.eng) (hj : Hist R post os s) : Hist R post (os ++ [(pollM R n s).1]) (pollM R n s).2 := by
  unfold Hist at *
  unfold pollM
  split
  · rename_i e rest he
    dsimp only
    have hconn := hj.conn
    have hsh : shown { s with events := rest } = { shown s with events := rest } := rfl
    rw [hsh]
    have key : ∀ o : Output, o.wire = none → o ≠ .eng .closeNotify → (∀ b, o ≠ .eng (.appData b)) →
        ((o = .connected) ↔ (e = .connected)) →
        Shape R post (os ++ [o]) s.st { shown s with events := rest } := by
      intro o h1 h2 h3 h4
      refine { hj with outs := ?_, conn := ?_, before := ?_, close := ?_ }
      · simp [List.filterMap_append, h1]; exact hj.outs
      · have : (shown s).events = e :: rest := he
        rw [this] at hconn
        simp only [List.count_append, List.count_cons, List.count_nil] at hconn ⊢
        by_cases hc : e = .connected
        · have hc' := h4.mpr hc
          subst hc hc'
          simp at hconn ⊢
          omega
        · have hc' : o ≠ .connected := fun g => hc (h4.mp g)
          simp [hc, hc'] at hconn ⊢
          omega
      · exact before_snoc hj.before (fun b hb => absurd hb (h3 b))
      · have := hj.close
        simp only [List.count_append, List.count_cons, List.count_nil]
        simp [h2, this]
    cases e with
    | connected => exact key _ rfl (by simp [eventOutput]) (by simp [eventOutput]) (by simp [eventOutput])
    | keyingMaterial m p =>
      exact key _ rfl (by simp [eventOutput]) (by simp [eventOutput]) (by simp [eventOutput])
    | peerCert =>
      have : ∀ cs, eventOutput .peerCert n cs = .panic ∨ ∃ c, eventOutput .peerCert n cs = .peerCert c := by
        intro cs
        unfold eventOutput
        cases cs with
        | nil => exact .inl rfl
        | cons c _ => dsimp only; split <;> simp
      rcases this s.peerCerts with h | ⟨c, h⟩ <;> rw [h] <;>
        exact key _ rfl (by simp) (by simp) (by simp)
  · rename_i he
    dsimp only
    have hpurge : ∀ o : Output, o.wire = none → o ≠ .eng .closeNotify → (∀ b, o ≠ .eng (.appData b)) →
        o ≠ .connected → Shape R post (os ++ [o]) s.st (shown { s with eng := purge s.eng }) := by
      intro o h1 h2 h3 h4
      have hsh : shown { s with eng := purge s.eng } = shown s := rfl
      rw [hsh]
      refine { hj with outs := ?_, conn := ?_, before := ?_, close := ?_ }
      · simp [List.filterMap_append, h1]; exact hj.outs
      · have := hj.conn
        simp [List.count_append, h4, this]
      · exact before_snoc hj.before (fun b hb => absurd hb (h3 b))
      · have := hj.close
        simp [List.count_append, h2, this]
    have hrest : Shape R post (os ++ [.eng (pollRest n s.lastNow (purge s.eng)).1]) s.st
        (shown { s with eng := (pollRest n s.lastNow (purge s.eng)).2 }) := by
      unfold pollRest
      split
      · split
        · exact hpurge _ rfl (by simp) (by simp) (by simp)
        · rename_i p rest htx _
          refine { hj with outs := ?_, conn := ?_, before := ?_, close := ?_, foreign := ?_ }
          · have := hj.outs
            simp only [shown, purge] at this ⊢
            rw [List.filterMap_append, List.filter_cons_of_pos rfl, List.filterMap_cons]
            simp [Output.wire, Ev.out, this]
          · have := hj.conn
            simp [List.count_append]
            exact this
          · exact before_snoc hj.before (by simp)
          · have := hj.close
            simp [List.count_append]
            exact this
          · intro r hr
            refine hj.foreign r ?_
            simpa [shown, purge, Ev.isOut] using hr
      · split
        · rename_i hcl
          simp only [Bool.and_eq_true, Bool.not_eq_true'] at hcl
          have hcr : (shown s).closeReported = false := hcl.2
          refine { hj with outs := ?_, conn := ?_, before := ?_, close := ?_, reported := ?_ }
          · have := hj.outs
            rw [List.filterMap_append, this]
            simp [Output.wire, shown, purge]
          · have := hj.conn
            simp [List.count_append]
            exact this
          · exact before_snoc hj.before (by simp)
          · have := hj.close
            rw [hcr] at this
            simp [List.count_append, this, shown]
          · intro _; exact hcl.1
        · exact hpurge _ rfl (by simp) (by simp) (by simp)
    unfold pollOutput
    dsimp only
    split
    · rename_i hrel
      split
      · rename_i r hn
        split
        · exact hpurge _ rfl (by simp) (by simp) (by simp)
        · have hrel' : (shown s).release = true := hrel
          have hcon := hj.conn
          have hev : (shown s).events = [] := he
          rw [hrel', hev] at hcon
          have hmem : Output.connected ∈ os := by
            rw [← List.count_pos_iff]
            simp at hcon
            omega
          refine { hj with outs := ?_, conn := ?_, before := ?_, close := ?_, foreign := ?_ }
          · have := hj.outs
            simp only [shown, purge] at this ⊢
            rw [List.filterMap_append, List.filter_cons_of_pos rfl, List.filterMap_cons]
            simp [Output.wire, Ev.out, this]
          · have := hj.conn
            simp [List.count_append]
            exact this
          · exact before_snoc hj.before (fun b _ => hmem)
          · have := hj.close
            simp [List.count_append]
            exact this
          · intro r' hr'
            have hpi := purge_rx hi
            obtain ⟨x, y, h1, h2, h3, h4, h5⟩ := nextApp_split hn
            have hm : Ev.delivered r' false = Ev.delivered r.rcd r.opened ∨
                Ev.delivered r' false ∈ (shown s).outs := by
              simpa [shown, purge, Ev.isOut] using hr'
            rcases hm with hm | hm
            · injection hm with e1 e2
              subst e1
              have hrm : r ∈ (purge s.eng).rx.flatten := by rw [h1]; simp
              have hok := hpi.recs r hrm
              have henc : (purge s.eng).peerEnc = true := hj.enc hrel'
              have hge := hok.app (by first | exact h3 | exact h4 | exact h5)
              have hne : r.rcd.epoch ≠ 1 := fun h1 => by
                have := hok.sealed henc h1
                rw [this] at e2
                cases e2
              omega
            · exact hj.foreign r' hm
      · exact hrest
    · exact hrest

theorem hist_stable {R : Role} {env : PEnv} {post : R.St → Bool} (hr : ShowRule R env post)
    {ok : Bytes → Prop} {I : Ses R.St → Prop} (hI : ∀ s, I s → RxInv s.eng) :
    HStable R env ok I (Hist R post) where
  packet os s p _ hj := by
    obtain ⟨c, hc, he⟩ := (parsePacket_arrive env.toEnv p s.eng).shown (s := s)
    show Shape R post os s.st _
    rw [he]
    exact hj.arrive hc
  note os s n _ hj := by
    have : shown (noteTime R env n s) = shown s ∧ (noteTime R env n s).st = s.st := by
      unfold noteTime; split <;> exact ⟨rfl, rfl⟩
    unfold Hist
    rw [this.1, this.2]
    exact hj
  timeout os s n _ hj := by
    have := shown_proj s _ (handleTimeout_quiet env.toEnv n s.eng)
    show Shape R post os s.st _
    rw [this]
    exact hj
  step os s _ hj := by
    refine wp_mono (hr.step s) ?_ ?_
    · intro new s' h
      exact hj.move h
    · rintro _ s' ⟨h1, h2⟩
      unfold Hist
      rw [h1]
      exact hj.move h2
  send os s d _ _ hj := by
    have hp := shown_proj (St := R.St)
    have : shown (sendM R env d s).2 = shown s ∧ (sendM R env d s).2.st = s.st := by
      unfold sendM
      simp only [bind_eq, M.bind, M.andThen, M.get]
      split
      · exact ⟨rfl, rfl⟩
      · split
        · exact ⟨rfl, rfl⟩
        · exact ⟨Keeps.record hp _ _ _ _ _ _ s, rfl⟩
    unfold Hist
    rw [this.1, this.2]
    exact hj
  close os s _ hj := by
    have hp := shown_proj (St := R.St)
    apply of_wp (m := closeM R env)
    unfold closeM
    simp only [bind_eq, wp_bind, wp_get]
    have fin : ∀ s' : Ses R.St, shown s' = shown s → s.st ≠ R.closed →
        Hist R post os { s' with st := R.closed } := by
      intro s' h hne
      show Shape R post os R.closed (shown s')
      rw [h]
      exact { hj with rel := fun _ => .inr rfl, app := fun g => absurd g.symm hr.ne,
                      post := fun g => by rw [hr.closed] at g; cases g }
    split
    · exact hj
    · rename_i hne
      split
      · simp only [wp_bind, wp_onEng', wp_modify]
        exact fin _ (Keeps.abort hp s) hne
      · have hk : Keeps shown (sendCloseNotify env : P R.St Unit) := .record hp _ _ _ _ _ _
        have hst : ((sendCloseNotify env : P R.St Unit) s).2.st = s.st := rfl
        simp only [wp_bind]
        refine wp_mono (wp_state (R := fun s' => shown s' = shown s ∧ s'.st = s.st) |>.mpr ⟨hk s, hst⟩) ?_ ?_
        · intro _ s' h
          exact fin s' h.1 hne
        · intro _ s' h
          show Shape R post os s'.st _
          rw [h.1, h.2]
          exact hj
  poll os s n hi hj := hist_poll n s (hI s hi) hj

end Verif.E12

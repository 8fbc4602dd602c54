import Verif.Lemmas.Cited12
/-!
# `poll_output` hands out what is waiting: DTLS 1.2
-/
namespace Verif.Props.Drain.V12
open Verif Wire Verif.E12


/-! ## Spec -/

/-- The output an event is reported with. -/
def tell (certs : List Bytes) : Event → Output
  | .connected => .connected
  | .keyingMaterial m p => .keyingMaterial m p
  | .peerCert => .peerCert (certs.headD [])

/-- What a session has to hand out: events, then the application data that was received, once it may be shown, then
datagrams, then the peer's close_notify. -/
def waiting {St : Type} (s : Ses St) : List Output :=
  s.events.map (tell s.peerCerts) ++
  (if s.eng.release = true then
    (s.eng.rx.flatten.filter fun r => r.rcd.ctype == ctAppData && !r.isHandled).map fun r =>
      .eng (.appData r.rcd.fragment)
  else []) ++
  s.eng.tx.map (fun p => .eng (.packet p)) ++
  (if s.eng.closeRecv = true ∧ s.eng.closeReported = false then [.eng .closeNotify] else [])

/-- The room an output needs in the buffer of the caller. -/
def size : Output → Nat
  | .peerCert c => c.length
  | .eng (.appData b) => b.length
  | .eng (.packet b) => b.length
  | _ => 0

/-! ## Proof -/

/-- Records of application data have no handshake messages. -/
def Plain (e : Eng) : Prop := ∀ r ∈ e.rx.flatten, r.rcd.ctype = ctAppData → r.hss = []

theorem drop_filter (f : Rx → Bool) (hf : ∀ r, r.isHandled = true → f r = false) (l : List (List Rx)) :
    ((l.dropWhile fun i => i.all (·.isHandled)).flatten).filter f = l.flatten.filter f := by
  induction l with
  | nil => rfl
  | cons i l ih =>
    rw [List.dropWhile_cons]
    split
    · rename_i hi
      rw [ih, List.flatten_cons, List.filter_append]
      have : i.filter f = [] := by
        refine List.filter_eq_nil_iff.mpr fun r hr => ?_
        rw [hf r (List.all_eq_true.mp hi r hr)]
        decide
      rw [this, List.nil_append]
    · rfl

theorem purge_plain {e : Eng} (h : Plain e) : Plain (purge e) := by
  intro r hr
  obtain ⟨i, h1, h2⟩ := List.mem_flatten.mp hr
  exact h r (List.mem_flatten.mpr ⟨i, List.dropWhile_subset _ h1, h2⟩)

abbrev live (r : Rx) : Bool := r.rcd.ctype == ctAppData && !r.isHandled

theorem live_handled (r : Rx) (h : r.isHandled = true) : live r = false := by simp [live, h]

theorem nextApp_none {e : Eng} (h : nextApp e = none) : e.rx.flatten.filter live = [] := by
  unfold nextApp at h
  have key : ∀ l : List Rx, ((l.filter fun r => decide (r.rcd.ctype = ctAppData)).dropWhile (·.isHandled)).head? = none →
      l.filter live = [] := by
    intro l
    induction l with
    | nil => intro _; rfl
    | cons x l ih =>
      intro h
      by_cases hc : x.rcd.ctype = ctAppData
      · rw [List.filter_cons_of_pos (by simpa using hc), List.dropWhile_cons] at h
        split at h
        · rename_i hx
          rw [List.filter_cons_of_neg (by simp [live, hx])]
          exact ih h
        · cases h
      · rw [List.filter_cons_of_neg (by simpa using hc)] at h
        rw [List.filter_cons_of_neg (by simp [live, hc])]
        exact ih h
  exact key _ h

theorem nextApp_some {e : Eng} {r : Rx} (hp : Plain e) (h : nextApp e = some r) :
    e.rx.flatten.filter live = r :: ((markApp e.rx).flatten.filter live) ∧
    ∀ x ∈ (markApp e.rx).flatten, x.rcd.ctype = ctAppData → x.hss = [] := by
  obtain ⟨a, b, h1, h2, h3, h4, h5⟩ := nextApp_split h
  have hr : r.hss = [] := hp r (by rw [h1]; simp) h3
  have ha : a.filter live = [] := by
    refine List.filter_eq_nil_iff.mpr fun x hx => ?_
    by_cases hc : x.rcd.ctype = ctAppData
    · simp [live, h5 x hx hc]
    · simp [live, hc]
  constructor
  · rw [h1, h2, List.filter_append, List.filter_append, ha, List.nil_append, List.nil_append,
      List.filter_cons_of_pos (by simp [live, h3, h4]), List.filter_cons_of_neg (by simp [live, Rx.isHandled, hr])]
  · intro x hx hc
    rw [h2] at hx
    rcases List.mem_append.mp hx with hx | hx
    · exact hp x (by rw [h1]; simp [hx]) hc
    · rcases List.mem_cons.mp hx with rfl | hx
      · exact hr
      · exact hp x (by rw [h1]; simp [hx]) hc

section
variable {R : Role} {env : PEnv}

/-- What the proof needs to know about a session. -/
structure Tidy {St : Type} (s : Ses St) : Prop where
  plain : Plain s.eng
  cited : Cited s

theorem Start.tidy {cfg : Cfg} {s0 : Ses R.St} (h : Start env cfg R s0) (hd : DecShort env.toEnv) (cs : List Call) :
    Tidy (run R env s0 cs).2 := by
  refine ⟨?_, h.cited cs⟩
  intro r hr hc
  exact ((h.rxInv hd cs).recs r hr).wf (by rw [hc]; decide)

end

/-- How a session is left by `poll_output`: it handed out the first thing waiting, the first thing waiting has no room
in the buffer, or nothing is waiting. -/
inductive Polled {St : Type} (n : Nat) (s : Ses St) : Output → Ses St → Prop where
  | first (o : Output) (s' : Ses St) (hn : size o ≤ n) (h : waiting s = o :: waiting s') : Polled n s o s'
  | tooSmall (o : Output) (s' : Ses St) (b : Bytes) (ho : o = .eng (.appData b) ∨ o = .eng (.packet b))
      (hn : n < b.length) (rest : List Output) (h : waiting s = o :: rest) (hs : waiting s' = waiting s) :
      Polled n s (.eng (.bufferTooSmall b.length)) s'
  | certificate (c : Bytes) (s' : Ses St) (hn : n < c.length) (rest : List Output)
      (h : waiting s = .peerCert c :: rest) : Polled n s .panic s'
  | done (t : Nat) (s' : Ses St) (h : waiting s = []) (hs : waiting s' = []) : Polled n s (.eng (.timeout t)) s'

theorem waiting_purge {St : Type} (s : Ses St) : waiting { s with eng := purge s.eng } = waiting s := by
  unfold waiting
  have : (purge s.eng).rx.flatten.filter live = s.eng.rx.flatten.filter live := drop_filter live live_handled _
  show _ ++ (if s.eng.release = true then ((purge s.eng).rx.flatten.filter live).map _ else []) ++ _ ++ _ = _
  rw [this]
  rfl

theorem rest_polled {St : Type} (n now : Nat) (s : Ses St) (hs : Tidy s) (he : s.events = [])
    (ha : s.eng.release = true → s.eng.rx.flatten.filter live = []) :
    Polled n s (.eng (pollRest n now s.eng).1) { s with eng := (pollRest n now s.eng).2 } ∧
    Tidy { s with eng := (pollRest n now s.eng).2 } := by
  have w0 : ∀ e : Eng, e.rx = s.eng.rx → e.release = s.eng.release →
      waiting { s with eng := e } = e.tx.map (fun p => .eng (.packet p)) ++
        (if e.closeRecv = true ∧ e.closeReported = false then [.eng .closeNotify] else []) := by
    intro e h1 h2
    unfold waiting
    dsimp only
    rw [he, h1, h2]
    have : (if s.eng.release = true then (s.eng.rx.flatten.filter live).map fun r => Output.eng (.appData r.rcd.fragment)
        else []) = [] := by
      split
      · rw [ha ‹_›]; rfl
      · rfl
    show [] ++ (if s.eng.release = true then (s.eng.rx.flatten.filter live).map fun r => Output.eng (.appData r.rcd.fragment)
        else []) ++ _ ++ _ = _
    rw [this]
    rfl
  unfold pollRest
  have wn : waiting s = _ := w0 s.eng rfl rfl
  split
  · rename_i p rest hp
    split
    · rename_i hn
      refine ⟨?_, ⟨hs.plain, hs.cited⟩⟩
      refine .tooSmall (.eng (.packet p)) _ p (.inr rfl) hn (waiting { s with eng := { s.eng with tx := rest } }) ?_ ?_
      · rw [wn, hp]
        exact congrArg (Output.eng (.packet p) :: ·) (w0 { s.eng with tx := rest } rfl rfl).symm
      · rw [show waiting { s with eng := s.eng } = waiting s from rfl]
    · rename_i hn
      refine ⟨?_, ⟨hs.plain, hs.cited⟩⟩
      refine .first _ _ (Nat.le_of_not_lt hn) ?_
      rw [wn, hp]
      exact congrArg (Output.eng (.packet p) :: ·)
        (w0 { s.eng with tx := rest, log := .sent p :: s.eng.log } rfl rfl).symm
  · rename_i hp
    split
    · rename_i hc
      refine ⟨?_, ⟨hs.plain, hs.cited⟩⟩
      refine .first _ _ (Nat.zero_le _) ?_
      have hc : s.eng.closeRecv = true ∧ s.eng.closeReported = false := by simpa using hc
      have hw := w0 { s.eng with closeReported := true } rfl rfl
      have hw := hw.trans (congrArg (_ ++ ·) (if_neg fun g => by cases g.2))
      have hw := hw.trans (List.append_nil _)
      have h0 : waiting s = [.eng .closeNotify] := by
        rw [wn, hp, if_pos hc]
        rfl
      have hw := hw.trans (show List.map (fun p => Output.eng (.packet p)) s.eng.tx = [] by rw [hp]; rfl)
      exact h0.trans (congrArg (Output.eng .closeNotify :: ·) hw.symm)
    · rename_i hc
      have hc : ¬ (s.eng.closeRecv = true ∧ s.eng.closeReported = false) := by simpa using hc
      refine ⟨?_, ⟨hs.plain, hs.cited⟩⟩
      have : waiting { s with eng := s.eng } = [] := by
        rw [show waiting { s with eng := s.eng } = waiting s from rfl, wn, hp, if_neg hc]
        rfl
      exact .done _ _ (this) this

theorem cert_polled {St : Type} {n : Nat} {s : Ses St} (certs : List Bytes) (s' : Ses St) (h : certs ≠ [])
    (hw : waiting s = tell certs .peerCert :: waiting s') : Polled n s (eventOutput .peerCert n certs) s' := by
  cases certs with
  | nil => exact absurd rfl h
  | cons c l =>
    show Polled n s (if c.length ≤ n then .peerCert c else .panic) s'
    split
    · exact .first _ _ (by assumption) hw
    · exact .certificate c _ (Nat.lt_of_not_le (by assumption)) _ hw

theorem poll_polled {R : Role} (n : Nat) (s : Ses R.St) (hs : Tidy s) :
    Polled n s (pollM R n s).1 (pollM R n s).2 ∧ Tidy (pollM R n s).2 := by
  have hc := pollM_cited n hs.cited
  unfold pollM at hc ⊢
  split
  · rename_i e rest he
    have hw : waiting s = tell s.peerCerts e :: waiting { s with events := rest } := by
      unfold waiting
      rw [he]
      rfl
    refine ⟨?_, hs.plain, ?_⟩
    · cases e with
      | connected => exact .first _ _ (Nat.zero_le _) hw
      | keyingMaterial m p => exact .first _ _ (Nat.zero_le _) hw
      | peerCert =>
        have h1 := hs.cited (by rw [he]; exact List.mem_cons_self)
        exact cert_polled _ _ h1 hw
    · rw [he] at hc
      exact hc
  · rename_i he
    have hw := waiting_purge s
    have hs' : Tidy { s with eng := purge s.eng } := ⟨purge_plain hs.plain, hs.cited⟩
    have move : ∀ o s', Polled n { s with eng := purge s.eng } o s' → Polled n s o s' := by
      intro o s' h
      cases h with
      | first _ _ hn h => exact .first _ _ hn (hw ▸ h)
      | tooSmall o _ b ho hn rest h h' => exact .tooSmall o _ b ho hn rest (hw ▸ h) (hw ▸ h')
      | certificate c _ hn rest h => exact .certificate c _ hn rest (hw ▸ h)
      | done t _ h h' => exact .done t _ (hw ▸ h) h'
    show Polled n s (.eng (pollOutput n s.lastNow s.eng).1) { s with eng := (pollOutput n s.lastNow s.eng).2 } ∧
      Tidy { s with eng := (pollOutput n s.lastNow s.eng).2 }
    unfold pollOutput
    dsimp only
    split
    · rename_i hr
      split
      · rename_i r hx
        obtain ⟨h1, h2⟩ := nextApp_some hs'.plain hx
        have hf : ∀ l, waiting { s with eng := { purge s.eng with rx := markApp (purge s.eng).rx, log := l } } =
            ((markApp (purge s.eng).rx).flatten.filter live).map (fun r => .eng (.appData r.rcd.fragment)) ++
            s.eng.tx.map (fun p => .eng (.packet p)) ++
            (if s.eng.closeRecv = true ∧ s.eng.closeReported = false then [.eng .closeNotify] else []) := by
          intro l
          unfold waiting
          dsimp only
          rw [he, if_pos hr]
          rfl
        have hg : waiting { s with eng := purge s.eng } = .eng (.appData r.rcd.fragment) ::
            (((markApp (purge s.eng).rx).flatten.filter live).map (fun r => .eng (.appData r.rcd.fragment)) ++
            s.eng.tx.map (fun p => .eng (.packet p)) ++
            (if s.eng.closeRecv = true ∧ s.eng.closeReported = false then [.eng .closeNotify] else [])) := by
          unfold waiting
          dsimp only
          rw [he, if_pos hr]
          show [] ++ ((purge s.eng).rx.flatten.filter live).map _ ++ _ ++ _ = _
          rw [h1]
          rfl
        split
        · rename_i hn
          exact ⟨move _ _ (.tooSmall _ _ _ (.inl rfl) hn _ hg rfl), hs'⟩
        · rename_i hn
          refine ⟨move _ _ (.first _ _ (Nat.le_of_not_lt hn) ?_), h2, hs.cited⟩
          rw [hg, hf]
      · rename_i hx
        obtain ⟨h1, h2⟩ := rest_polled n s.lastNow _ hs' he (fun _ => nextApp_none hx)
        exact ⟨move _ _ h1, h2⟩
    · rename_i hr
      obtain ⟨h1, h2⟩ := rest_polled n s.lastNow _ hs' he (fun g => absurd g hr)
      exact ⟨move _ _ h1, h2⟩

theorem purge_again (e : Eng) : purge (purge e) = purge e := by
  have key : ∀ l : List (List Rx), ((l.dropWhile fun i => i.all (·.isHandled)).dropWhile fun i => i.all (·.isHandled)) =
      l.dropWhile fun i => i.all (·.isHandled) := by
    intro l
    induction l with
    | nil => rfl
    | cons i l ih =>
      rw [List.dropWhile_cons]
      split
      · exact ih
      · rw [List.dropWhile_cons, if_neg (by assumption)]
  unfold purge
  dsimp only
  rw [key]

theorem out_again {n now t : Nat} {e : Eng} (m : Nat) (h : (pollOutput n now e).1 = .timeout t) :
    pollOutput m now (pollOutput n now e).2 = (.timeout t, (pollOutput n now e).2) := by
  have rest : ∀ e : Eng, (pollRest n now e).1 = .timeout t → (pollRest n now e).2 = e ∧ pollRest m now e = (.timeout t, e) := by
    intro e h
    unfold pollRest at h ⊢
    split at h
    · split at h <;> cases h
    · split at h
      · cases h
      · rename_i hc
        rw [if_neg hc]
        injection h with h
        exact ⟨rfl, by rw [h]⟩
  have skip : ∀ (k : Nat) (f : Eng), (f.release = true → nextApp f = none) → purge f = f →
      pollOutput k now f = pollRest k now f := by
    intro k f h1 h2
    unfold pollOutput
    dsimp only
    rw [h2]
    split
    · rw [h1 ‹_›]
    · rfl
  have same : ∀ k, pollOutput k now e = pollOutput k now (purge e) := by
    intro k
    unfold pollOutput
    rw [purge_again]
  have hx : (purge e).release = true → nextApp (purge e) = none := by
    intro hr
    unfold pollOutput at h
    dsimp only at h
    rw [if_pos hr] at h
    split at h
    · split at h <;> cases h
    · assumption
  have e1 : pollOutput n now e = pollRest n now (purge e) := (same n).trans (skip n _ hx (purge_again e))
  rw [e1] at h ⊢
  obtain ⟨h1, h2⟩ := rest _ h
  rw [h1, skip m _ hx (purge_again e)]
  exact h2

theorem poll_again {R : Role} {n t : Nat} {s : Ses R.St} (m : Nat) (h : (pollM R n s).1 = .eng (.timeout t)) :
    pollM R m (pollM R n s).2 = (.eng (.timeout t), (pollM R n s).2) := by
  unfold pollM at h
  split at h
  · rename_i e rest he
    cases e with
    | connected => cases h
    | keyingMaterial => cases h
    | peerCert =>
      dsimp only [eventOutput] at h
      split at h
      · cases h
      · split at h <;> cases h
  · rename_i he
    injection h with h
    have hx : (pollM R n s).2 = { s with eng := (pollOutput n s.lastNow s.eng).2 } := by
      unfold pollM
      rw [he]
    rw [hx]
    have ha := out_again m h
    have hm : pollM R m { s with eng := (pollOutput n s.lastNow s.eng).2 } =
        (.eng (pollOutput m s.lastNow (pollOutput n s.lastNow s.eng).2).1,
          { s with eng := (pollOutput m s.lastNow (pollOutput n s.lastNow s.eng).2).2 }) := by
      unfold pollM
      dsimp only
      rw [he]
    rw [hm, ha]

/-- A run of polls with a buffer that has room for all that waits. -/
theorem polls {R : Role} {env : PEnv} (n : Nat) (l : List Output) : ∀ s : Ses R.St, Tidy s → waiting s = l →
    (∀ o ∈ l, size o ≤ n) → ∃ t, ∀ k,
    (run R env s (List.replicate k (.poll n))).1 = ((l ++ List.replicate k (Output.eng (.timeout t))).take k).map .out := by
  have cons : ∀ (s : Ses R.St) k, (pollM R n s).1 ≠ .panic → (run R env s (List.replicate (k + 1) (.poll n))).1 =
      .out (pollM R n s).1 :: (run R env (pollM R n s).2 (List.replicate k (.poll n))).1 := by
    intro s k h
    rw [List.replicate_succ]
    show (if _ then _ else _ : List Ret × Ses R.St).1 = _
    rw [if_neg]
    · rfl
    · rintro (g | g | g)
      · cases g
      · cases g
      · injection g with g; exact h g
  induction l with
  | nil =>
    intro s hs hw _
    obtain ⟨h1, h2⟩ := poll_polled n s hs
    have : ∃ t, (pollM R n s).1 = .eng (.timeout t) := by
      generalize (pollM R n s).1 = o at h1
      generalize (pollM R n s).2 = s' at h1
      cases h1 with
      | first _ _ _ h => rw [hw] at h; cases h
      | tooSmall _ _ _ _ _ _ h => rw [hw] at h; cases h
      | certificate _ _ _ _ h => rw [hw] at h; cases h
      | done t _ _ _ => exact ⟨t, rfl⟩
    obtain ⟨t, ht⟩ := this
    refine ⟨t, fun k => ?_⟩
    rw [List.nil_append, List.take_replicate, Nat.min_self]
    have again : ∀ k, ∀ s : Ses R.St, pollM R n s = (.eng (.timeout t), s) →
        (run R env s (List.replicate k (.poll n))).1 = (List.replicate k (.eng (.timeout t))).map .out := by
      intro k
      induction k with
      | zero => intro _ _; rfl
      | succ k ih =>
        intro s h
        rw [cons s k (by rw [h]; nofun), h]
        exact congrArg (_ :: ·) (ih s h)
    cases k with
    | zero => rfl
    | succ k =>
      rw [cons s k (by rw [ht]; nofun), ht, again k _ (poll_again n ht)]
      rfl
  | cons o l ih =>
    intro s hs hw hn
    obtain ⟨h1, h2⟩ := poll_polled n s hs
    have h3 : (pollM R n s).1 = o ∧ waiting (pollM R n s).2 = l ∧ o ≠ .panic := by
      have hp : o ≠ .panic := by
        rintro rfl
        unfold waiting at hw
        have := hw ▸ (List.mem_cons_self : Output.panic ∈ Output.panic :: l)
        simp only [List.mem_append, List.mem_map] at this
        rcases this with ((⟨e, _, h⟩ | h) | ⟨p, _, h⟩) | h
        · cases e <;> cases h
        · split at h
          · obtain ⟨_, _, h⟩ := List.mem_map.mp h
            cases h
          · cases h
        · cases h
        · split at h
          · cases List.mem_singleton.mp h
          · cases h
      generalize (pollM R n s).1 = x at h1
      generalize (pollM R n s).2 = s' at h1
      cases h1 with
      | first _ _ _ h =>
        rw [hw] at h
        injection h with h h'
        exact ⟨h.symm, h'.symm, hp⟩
      | tooSmall o' _ b ho hb rest h =>
        rw [hw] at h
        injection h with h
        have := hn o List.mem_cons_self
        rcases ho with g | g <;> rw [h, g] at this <;> exact absurd this (Nat.not_le.mpr hb)
      | certificate c _ hc rest h =>
        rw [hw] at h
        injection h with h
        have := hn o List.mem_cons_self
        rw [h] at this
        exact absurd this (Nat.not_le.mpr hc)
      | done t _ h => rw [hw] at h; cases h
    obtain ⟨h3, h4, h5⟩ := h3
    obtain ⟨t, ht⟩ := ih (pollM R n s).2 h2 h4 fun x hx => hn x (List.mem_cons_of_mem _ hx)
    refine ⟨t, fun k => ?_⟩
    cases k with
    | zero => rfl
    | succ k =>
      rw [cons s k (by rw [h3]; exact h5), h3, ht k]
      show _ = ((o :: (l ++ List.replicate (k + 1) _)).take (k + 1)).map _
      rw [List.take_succ_cons, List.map_cons]
      refine congrArg (fun x => Ret.out o :: List.map Ret.out x) ?_
      rw [List.take_append, List.take_append, List.take_replicate, List.take_replicate]
      refine congrArg (_ ++ List.replicate · _) ?_
      omega

/-! ## Theorems -/

section
variable {R : Role} {env : PEnv} {cfg : Cfg} {s0 : Ses R.St}

/-- **C66 (DTLS 1.2).** Whatever happened before: polling with a buffer with room for all that waits hands out exactly
what waits, each once and in order, and then Timeout with the same time again and again. -/
theorem drains (h : Start env cfg R s0) (hd : DecShort env.toEnv) (cs : List Call) (n : Nat)
    (hn : ∀ o ∈ waiting (run R env s0 cs).2, size o ≤ n) : ∃ t, ∀ k,
    (run R env (run R env s0 cs).2 (List.replicate k (.poll n))).1 =
      ((waiting (run R env s0 cs).2 ++ List.replicate k (Output.eng (.timeout t))).take k).map .out :=
  polls n _ _ (Start.tidy h hd cs) rfl hn

/-- **C66 (DTLS 1.2), any buffer.** One poll hands out the first thing waiting and nothing else changes in what waits;
or what comes first does not fit, which the caller is told, and it keeps waiting; or it is a certificate that does not
fit, which is a panic; or nothing waits and the output is Timeout. -/
theorem poll_hands_out (h : Start env cfg R s0) (hd : DecShort env.toEnv) (cs : List Call) (n : Nat) :
    Polled n (run R env s0 cs).2 (pollM R n (run R env s0 cs).2).1 (pollM R n (run R env s0 cs).2).2 :=
  (poll_polled n _ (Start.tidy h hd cs)).1

/-- **C66 (DTLS 1.2), rest.** After Timeout nothing changes and the time does not move until another call is made. -/
theorem timeout_stays (s : Ses R.St) (n t : Nat) (h : (call R env s (.poll n)).1 = .out (.eng (.timeout t))) (m : Nat) :
    call R env (call R env s (.poll n)).2 (.poll m) =
      (.out (.eng (.timeout t)), (call R env s (.poll n)).2) := by
  have h : (pollM R n s).1 = .eng (.timeout t) := by injection h
  show (Ret.out (pollM R m (pollM R n s).2).1, (pollM R m (pollM R n s).2).2) = _
  rw [poll_again m h]
  rfl

end



end Verif.Props.Drain.V12

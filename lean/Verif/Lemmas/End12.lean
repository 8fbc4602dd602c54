import Verif.Lemmas.Shown12
/-!
# After a close_notify
-/
namespace Verif.E12
open Verif Wire Window Timer Aead M

/-! ## Nothing new becomes readable -/

/-- A close_notify has been received, the application records still waiting satisfy `A`, and so do
those delivered since the log was `L`. -/
structure Ended (A : Rec12 → Prop) (L : List Ev) (s : Eng) : Prop where
  closed : s.closeRecv = true
  wait : ∀ r ∈ s.rx.flatten, r.rcd.ctype = ctAppData → r.isHandled = false → A r.rcd
  log : ∃ es, s.log = es ++ L ∧ ∀ r o, Ev.delivered r o ∈ es → A r

section
variable {A : Rec12 → Prop} {L : List Ev} {env : Env} {s s' : Eng}

theorem Ended.fewer (h : Ended A L s) (hf : Fewer s.rx.flatten s'.rx.flatten)
    (hc : s.closeRecv = true → s'.closeRecv = true)
    (hl : ∃ es, s'.log = es ++ s.log ∧ ∀ e ∈ es, ∀ r o, e ≠ .delivered r o) : Ended A L s' := by
  refine ⟨hc h.closed, ?_, ?_⟩
  · intro r' hr' h1 h2
    obtain ⟨r, hr, m⟩ := hf.mem hr'
    rw [m.rcd]
    refine h.wait r hr (m.rcd ▸ h1) ?_
    cases hh : r.isHandled
    · rfl
    · rw [m.handled hh] at h2; cases h2
  · obtain ⟨es, h1, h2⟩ := h.log
    obtain ⟨es', g1, g2⟩ := hl
    refine ⟨es' ++ es, by rw [g1, h1, List.append_assoc], ?_⟩
    intro r o hm
    rcases List.mem_append.mp hm with hm | hm
    · exact absurd rfl (g2 _ hm r o)
    · exact h2 r o hm

theorem Ended.same (h : Ended A L s) (hx : s'.rx = s.rx) (hc : s'.closeRecv = s.closeRecv)
    (hl : s'.log = s.log) : Ended A L s' :=
  h.fewer (by rw [hx]; exact .refl _) (by rw [hc]; exact id) ⟨[], by simpa using hl, by simp⟩

theorem SendFrame.ended (g : SendFrame s s') (h : Ended A L s) : Ended A L s' := by
  obtain ⟨_, _, _, _, _, es, he, rfl⟩ := g
  refine h.fewer (.refl _) id ⟨es, rfl, ?_⟩
  rintro e hm r o rfl
  have := he _ hm
  simp [Ev.isSend] at this

theorem RecvFrame.ended (g : RecvFrame s s') (hc : s.closeRecv = true → s'.closeRecv = true)
    (h : Ended A L s) : Ended A L s' := by
  obtain ⟨_, _, _, es, he, rfl⟩ := g
  refine h.fewer (.refl _) hc ⟨es, rfl, ?_⟩
  rintro e hm r o rfl
  have := he _ hm
  simp [Ev.isOpened] at this

theorem classify_app (r : Rx) (s : Eng) (h : s.closeRecv = true) :
    wp (classify r) s (fun o s' => s'.closeRecv = true ∧ ∀ x, o = some x → x.rcd.ctype ≠ ctAppData)
      (fun _ _ => True) := by
  apply wp_of
  · intro o s' he
    have hc := classify_close r s h
    rw [he] at hc
    refine ⟨hc, ?_⟩
    rintro x rfl
    unfold classify classifyAlert at he
    split at he
    · cases he
    split at he
    · cases he
    split at he
    · rename_i ha
      have hx : x = r := by
        revert he
        repeat' split
        all_goals intro he; cases he
        all_goals rfl
      subst hx
      rw [ha]; decide
    · split at he
      · cases he
      · rename_i hn
        cases he
        intro hc
        exact hn ⟨h, hc⟩
  · intro _ _ _; trivial

theorem classifyAll_app (l acc : List Rx) (s : Eng) (h : s.closeRecv = true)
    (ha : ∀ r ∈ acc, r.rcd.ctype ≠ ctAppData) :
    wp (classifyAll l acc) s (fun rs _ => ∀ r ∈ rs, r.rcd.ctype ≠ ctAppData) (fun _ _ => True) := by
  induction l generalizing acc s with
  | nil => exact ha
  | cons r rest ih =>
    unfold classifyAll
    rw [wp_bind]
    refine wp_mono (classify_app r s h) ?_ (fun _ _ h => h)
    rintro o s' ⟨hc, ho⟩
    cases o with
    | none => exact ih _ _ hc ha
    | some x =>
      refine ih _ _ hc ?_
      intro y hy
      rcases List.mem_append.mp hy with hy | hy
      · exact ha y hy
      · simp at hy; subst hy; exact ho _ rfl

theorem recordsParse_app (p : Bytes) (s : Eng) (h : s.closeRecv = true) :
    wp (recordsParse env p) s (fun rs _ => ∀ r ∈ rs, r.rcd.ctype ≠ ctAppData) (fun _ _ => True) := by
  unfold recordsParse
  rw [wp_bind]
  refine wp_mono (wp_state (R := fun s' => s'.closeRecv = true) |>.mpr
    ((parseSlices_close env _ _ _ s).trans h)) ?_ (fun _ _ _ => trivial)
  intro rs s' hs
  exact classifyAll_app rs [] s' hs (by simp)

/-- Inserting records that are no application data. -/
theorem Ended.insert (h : Ended A L s) {rs : List Rx} (hrs : ∀ r ∈ rs, r.rcd.ctype ≠ ctAppData)
    (i t : Nat) : Ended A L { s with rx := insertAt s.rx i rs, tick := t } := by
  refine ⟨h.closed, ?_, h.log⟩
  intro r hr h1 h2
  have : r ∈ (insertAt s.rx i rs).flatten := hr
  unfold insertAt at this
  rw [List.flatten_append, List.flatten_cons] at this
  rcases List.mem_append.mp this with hm | hm
  · obtain ⟨x, hx, hrx⟩ := List.mem_flatten.mp hm
    exact h.wait r (List.mem_flatten.mpr ⟨x, List.mem_of_mem_take hx, hrx⟩) h1 h2
  · rcases List.mem_append.mp hm with hm | hm
    · exact absurd h1 (hrs r hm)
    · obtain ⟨x, hx, hrx⟩ := List.mem_flatten.mp hm
      exact h.wait r (List.mem_flatten.mpr ⟨x, List.mem_of_mem_drop hx, hrx⟩) h1 h2

theorem insertIncoming_ended (rs : List Rx) (hrs : ∀ r ∈ rs, r.rcd.ctype ≠ ctAppData) (h : Ended A L s) :
    Ended A L (insertIncoming env rs s).2 := by
  unfold insertIncoming
  split
  · exact h
  split
  · exact h
  split
  · rw [bind_snd]
    rename_i r rest _ _ _ _
    have hm := (maybeResend_frame env (r :: rest) s).ended h
    split
    · unfold insertHandshakeTail insertHs
      dsimp only
      repeat' split
      all_goals first
        | exact hm
        | exact hm.insert hrs _ _
        | exact hm.same rfl rfl rfl
    · exact hm
  · rename_i r rest _ _
    have hrs' : ∀ x ∈ (if s.peerEnc = true then List.map markStaleHs (r :: rest) else r :: rest),
        x.rcd.ctype ≠ ctAppData := by
      split
      · intro x hx
        obtain ⟨y, hy, rfl⟩ := List.mem_map.mp hx
        rw [(markStaleHs_mark y).rcd]
        exact hrs y hy
      · exact hrs
    unfold insertNonHandshake
    split
    · exact h
    · revert hrs'
      generalize (if s.peerEnc = true then List.map markStaleHs (r :: rest) else r :: rest) = q
      intro hrs'
      unfold insertBySeq
      dsimp only
      repeat' split
      all_goals first
        | exact h.insert hrs' _ _
        | exact h.same rfl rfl rfl

theorem parsePacket_ended (p : Bytes) (h : Ended A L s) : Ended A L (parsePacket env p s).2 := by
  apply of_wp (m := parsePacket env p)
  unfold parsePacket
  rw [wp_bind]
  have h1 : Ended A L (recordsParse env p s).2 :=
    (recordsParse_frame env p s).ended (recordsParse_close env p s) h
  refine wp_mono (wp_and (wp_state (R := Ended A L) |>.mpr h1) (recordsParse_app p s h.closed)) ?_
    (fun _ _ h => h.1)
  rintro rs s' ⟨g1, g2⟩
  split
  · exact g1
  · exact to_wp (insertIncoming_ended _ g2 g1)

theorem reparse_ended (l : List Bytes) (h : Ended A L s) : Ended A L (reparse env l s).2 := by
  induction l generalizing s with
  | nil => exact h
  | cons b rest ih =>
    unfold reparse
    rw [bind_snd]
    split
    · exact ih (parsePacket_ended b h)
    · exact parsePacket_ended b h

theorem purge_ended (h : Ended A L s) : Ended A L (purge s) := by
  refine h.fewer (.of_sublist ?_) id ⟨[], rfl, by simp⟩
  conv => rhs; rw [← List.takeWhile_append_dropWhile (p := fun i => i.all (·.isHandled)) (l := s.rx)]
  rw [List.flatten_append]
  exact List.sublist_append_right _ _

theorem deliver_ended {r : Rx} (h : Ended A L s) (hn : nextApp s = some r) :
    Ended A L { s with rx := markApp s.rx, log := .delivered r.rcd r.opened :: s.log } := by
  obtain ⟨a, b, h1, h2, h3, h4, _⟩ := nextApp_split hn
  have hA := h.wait r (by rw [h1]; simp) h3 h4
  have hf : Fewer s.rx.flatten (markApp s.rx).flatten := by
    rw [h1, h2]
    exact (Fewer.refl a).append (.keep (mark_handled r) (.refl b))
  have g : Ended A L { s with rx := markApp s.rx } := h.fewer hf id ⟨[], rfl, by simp⟩
  refine ⟨g.closed, g.wait, ?_⟩
  obtain ⟨es, e1, e2⟩ := g.log
  refine ⟨.delivered r.rcd r.opened :: es, by simpa using e1, ?_⟩
  intro r' o hm
  rcases List.mem_cons.mp hm with hm | hm
  · cases hm; exact hA
  · exact e2 r' o hm

theorem Core.ended {ok : Bytes → Prop} (h : Core env ok s s') (hi : Ended A L s) : Ended A L s' := by
  cases h with
  | packet p => exact parsePacket_ended p hi
  | enablePeer =>
    unfold enablePeerEncryption
    dsimp only
    split
    · exact hi.same rfl rfl rfl
    · refine reparse_ended _ (hi.fewer (.of_sublist ?_) id ⟨[], rfl, by simp⟩)
      rename_i i _
      conv => rhs; rw [← List.take_append_drop i s.rx]
      rw [List.flatten_append]
      exact List.sublist_append_left _ _
  | record c e sv fo f h hk => exact (createRecord_frame ..).ended hi
  | handshake t b hk =>
    unfold createHandshake
    dsimp only
    split
    · exact hi.same rfl rfl rfl
    split
    · exact hi.same rfl rfl rfl
    · exact (fragmentLoop_frame ..).ended (hi.same rfl rfl rfl)
  | timeout now =>
    unfold handleTimeout
    dsimp only
    split
    · exact hi.same rfl rfl rfl
    · exact hi.same rfl rfl rfl
    · exact (flightResend_frame ..).ended (hi.same rfl rfl rfl)
    · exact hi.same rfl rfl rfl
  | resetServer => exact hi.fewer (.of_sublist (List.nil_sublist _)) id ⟨[], rfl, by simp⟩
  | nextHandshake t =>
    unfold E12.nextHandshake defragment
    dsimp only
    repeat' split
    all_goals first
      | exact hi
      | exact hi.fewer (markQueue_fewer ..) id ⟨[], rfl, by simp⟩
      | exact hi.fewer (markQueue_fewer ..) id ⟨[_], rfl, by simp⟩
  | nextRecord c =>
    unfold E12.nextRecord
    repeat' split
    all_goals first
      | exact hi
      | exact hi.fewer (markFirst_fewer _) id ⟨[], rfl, by simp⟩
  | dropCcs =>
    refine hi.fewer ?_ id ⟨[], rfl, by simp⟩
    show Fewer _ (List.map _ s.rx).flatten
    rw [← List.map_flatten]
    refine .map (fun r => ?_) _
    split
    · exact mark_handled r
    · exact .refl r
  | poll n now =>
    have hp := purge_ended hi
    revert hp
    unfold pollOutput
    generalize purge s = u
    intro hp
    have hr : Ended A L (pollRest n now u).2 := by
      unfold pollRest
      split
      · split
        · exact hp
        · exact hp.fewer (.refl _) id ⟨[_], rfl, by simp⟩
      · split
        · exact hp.same rfl rfl rfl
        · exact hp
    dsimp only
    split
    · split
      · split
        · exact hp
        · exact deliver_ended hp ‹_›
      · exact hr
    · exact hr
  | _ => exact hi.same rfl rfl rfl

theorem Steps.ended {ok : Bytes → Prop} (h : Steps env ok s s') (hs : Ended A L s) : Ended A L s' := by
  refine Star.invariant (R := Step env ok) (I := Ended A L) ?_ h hs
  intro a b hs ha
  cases hs with
  | core h => exact h.ended ha
  | suite cs h =>
    unfold setCipherSuite
    split
    · exact ha
    · exact ha.same rfl rfl rfl
  | keys k h _ => exact ha.same rfl rfl rfl

end

/-! ## The close_notify was authentic -/

/-- A close_notify alert was opened. -/
def ClosedBy (log : List Ev) : Prop :=
  ∃ key nonce aad cipher level rest epoch seq,
    Ev.opened key nonce aad cipher (level :: 0 :: rest) ctAlert epoch seq ∈ log

def CloseOk (s : Eng) : Prop := s.closeRecv = true → ClosedBy s.log

theorem ClosedBy.mono {l l' : List Ev} (h : ClosedBy l) (hl : ∀ e ∈ l, e ∈ l') : ClosedBy l' := by
  obtain ⟨a1, a2, a3, a4, a5, a6, a7, a8, h⟩ := h
  exact ⟨a1, a2, a3, a4, a5, a6, a7, a8, hl _ h⟩

theorem classify_closeOk (r : Rx) (s : Eng) (hr : s.peerEnc = true → r.rcd.epoch ≥ 1 → OpenedIn s s.log r.rcd)
    (h : CloseOk s) : CloseOk (classify r s).2 := by
  unfold classify classifyAlert
  repeat' split
  all_goals first
    | exact h
    | skip
  rename_i hct he hp _ l d ha hd
  intro _
  have he : r.rcd.epoch ≥ 1 := by omega
  have hp : s.peerEnc = true := by simpa using hp
  obtain ⟨key, iv, n, a, c, _, hm⟩ := hr hp he
  unfold alertOf at ha
  split at ha
  · rename_i l' d' rest hf
    cases ha
    rw [hf, hct, hd] at hm
    exact ⟨_, _, _, _, _, _, _, _, hm⟩
  · cases ha

theorem classify_log (r : Rx) (s : Eng) : ∃ c, (classify r s).2 = { s with closeRecv := c } := by
  rcases classify_cases r s with h | h | h | ⟨d, h⟩ <;> rw [h]
  · exact ⟨s.closeRecv, rfl⟩
  · exact ⟨s.closeRecv, rfl⟩
  · exact ⟨true, rfl⟩
  · exact ⟨s.closeRecv, rfl⟩

theorem classifyAll_closeOk (l acc : List Rx) (s : Eng)
    (hl : ∀ r ∈ l, s.peerEnc = true → r.rcd.epoch ≥ 1 → OpenedIn s s.log r.rcd) (h : CloseOk s) :
    CloseOk (classifyAll l acc s).2 := by
  induction l generalizing acc s with
  | nil => exact h
  | cons r rest ih =>
    unfold classifyAll
    rw [bind_snd]
    have h1 := classify_closeOk r s (hl r (by simp)) h
    obtain ⟨c, hc⟩ := classify_log r s
    have h2 : ∀ x ∈ rest, (classify r s).2.peerEnc = true → x.rcd.epoch ≥ 1 →
        OpenedIn (classify r s).2 (classify r s).2.log x.rcd := by
      rw [hc]
      exact fun x hx => hl x (by simp [hx])
    split
    · split
      · exact ih _ _ h2 h1
      · exact ih _ _ h2 h1
    · exact h1

theorem recordsParse_closeOk {env : Env} (hd : DecShort env) (p : Bytes) (s : Eng) (h : CloseOk s) :
    CloseOk (recordsParse env p s).2 := by
  apply of_wp (m := recordsParse env p)
  unfold recordsParse
  rw [wp_bind]
  have h0 : Parsed s s [] [] :=
    ⟨⟨s.replay, s.confirmed, rfl⟩, by simp, fun l h1 h2 => ⟨h1, h2⟩, by simp, by simp⟩
  refine wp_mono (parseSlices_parsed hd (split12 p).1 (split12 p).2 (split12_short p) h0) ?_ ?_
  · rintro rs s' ⟨es, ⟨rp, cf, rfl⟩, _, _, h4, _⟩
    refine to_wp (classifyAll_closeOk _ _ _ ?_ ?_)
    · intro r hr h1 h2
      have := h4 r hr
      exact (this.opened (this.sealed h1 h2)).mono rfl (fun e he => by simp [he])
    · intro hc
      exact (h hc).mono fun e he => by simp [he]
  · rintro _ s' ⟨es, ⟨rp, cf, rfl⟩, _, _, _, _⟩
    intro hc
    exact (h hc).mono fun e he => by simp [he]

theorem CloseOk.arrive {s s' : Eng} (h : CloseOk s) (hc : s'.closeRecv = s.closeRecv)
    (hl : ∃ es, s'.log = es ++ s.log) : CloseOk s' := by
  obtain ⟨es, hl⟩ := hl
  intro g
  rw [hc] at g
  rw [hl]
  exact (h g).mono fun e he => by simp [he]

theorem SendFrame.closeOk {s s' : Eng} (g : SendFrame s s') (h : CloseOk s) : CloseOk s' := by
  obtain ⟨_, _, _, _, _, es, he, rfl⟩ := g
  exact h.arrive rfl ⟨es, rfl⟩

theorem insertIncoming_closeOk (env : Env) (rs : List Rx) {s : Eng} (h : CloseOk s) :
    CloseOk (insertIncoming env rs s).2 := by
  unfold insertIncoming
  split
  · exact h
  split
  · exact h
  split
  · rw [bind_snd]
    rename_i r rest _ _ _ _
    have hm := (maybeResend_frame env (r :: rest) s).closeOk h
    split
    · unfold insertHandshakeTail insertHs
      dsimp only
      repeat' split
      all_goals exact hm
    · exact hm
  · unfold insertNonHandshake insertBySeq
    dsimp only
    repeat' split
    all_goals exact h

theorem parsePacket_closeOk {env : Env} (hd : DecShort env) (p : Bytes) {s : Eng} (h : CloseOk s) :
    CloseOk (parsePacket env p s).2 := by
  unfold parsePacket
  rw [bind_snd]
  have h1 := recordsParse_closeOk hd p s h
  split
  · split
    · exact h1
    · exact insertIncoming_closeOk _ _ h1
  · exact h1

theorem reparse_closeOk {env : Env} (hd : DecShort env) (l : List Bytes) {s : Eng} (h : CloseOk s) :
    CloseOk (reparse env l s).2 := by
  induction l generalizing s with
  | nil => exact h
  | cons b rest ih =>
    unfold reparse
    rw [bind_snd]
    split
    · exact ih (parsePacket_closeOk hd b h)
    · exact parsePacket_closeOk hd b h

theorem Core.closeOk {env : Env} (hd : DecShort env) {ok : Bytes → Prop} {s s' : Eng}
    (h : Core env ok s s') (hi : CloseOk s) : CloseOk s' := by
  cases h with
  | packet p => exact parsePacket_closeOk hd p hi
  | enablePeer =>
    unfold enablePeerEncryption
    dsimp only
    split
    · exact hi
    · exact reparse_closeOk hd _ hi
  | record c e sv fo f h hk => exact (createRecord_frame ..).closeOk hi
  | handshake t b hk =>
    unfold createHandshake
    dsimp only
    split
    · exact hi
    split
    · exact hi
    · exact (fragmentLoop_frame ..).closeOk hi
  | timeout now =>
    unfold handleTimeout
    dsimp only
    split
    · exact hi
    · exact hi
    · exact (flightResend_frame ..).closeOk hi
    · exact hi
  | nextHandshake t =>
    unfold E12.nextHandshake defragment
    dsimp only
    repeat' split
    all_goals first
      | exact hi
      | exact hi.arrive rfl ⟨[_], rfl⟩
  | nextRecord c =>
    unfold E12.nextRecord
    repeat' split
    all_goals exact hi
  | poll n now =>
    unfold pollOutput pollRest
    dsimp only
    repeat' split
    all_goals first
      | exact hi
      | exact hi.arrive rfl ⟨[_], rfl⟩
  | _ => exact hi

theorem Steps.closeOk {env : Env} (hd : DecShort env) {ok : Bytes → Prop} {s s' : Eng}
    (h : Steps env ok s s') (hs : CloseOk s) : CloseOk s' := by
  refine Star.invariant (R := Step env ok) (I := CloseOk) ?_ h hs
  intro a b hs ha
  cases hs with
  | core h => exact h.closeOk hd ha
  | suite cs h =>
    unfold setCipherSuite
    split
    · exact ha
    · exact ha
  | keys k h _ => exact ha

end Verif.E12

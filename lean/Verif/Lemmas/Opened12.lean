import Verif.Lemmas.Steps12
/-!
# What an opened record is
-/
namespace Verif.E12
open Verif Wire Window Timer Aead M

/-- An `opened` event stands for a successful decryption with the receive key, the nonce and the
additional data of that record. -/
def EvOk (env : Env) (s : Eng) : Ev → Prop
  | .opened k n a c p t e q => ∃ iv x len, s.peerKey = some (k, iv) ∧
      recordNonce s.explicitLen iv x e q = some n ∧ a = aad12 t e q len ∧ env.dec k n a c = some p
  | _ => True

theorem EvOk.keep {env : Env} {s s' : Eng} {e : Ev} (h : EvOk env s e) (k : Keep s s') : EvOk env s' e := by
  cases e with
  | opened =>
    obtain ⟨iv, x, len, h1, h2⟩ := h
    refine ⟨iv, x, len, ?_, ?_⟩
    · rw [← h1]; unfold Eng.peerKey; rw [k.keys, k.isClient]
    · rw [k.explicitLen]; exact h2
  | _ => trivial

/-- Same keys, and the new events are right. -/
structure Opens (env : Env) (s s' : Eng) : Prop where
  keep : Keep s s'
  log : ∃ es, s'.log = es ++ s.log ∧ ∀ e ∈ es, EvOk env s e

section
variable {env : Env} {s s' : Eng}

theorem Opens.refl (s : Eng) : Opens env s s := ⟨.refl s, [], rfl, by simp⟩

theorem Opens.trans {a b c : Eng} (h : Opens env a b) (g : Opens env b c) : Opens env a c := by
  obtain ⟨k1, es, h1, h2⟩ := h
  obtain ⟨k2, es', g1, g2⟩ := g
  refine ⟨k1.trans k2, es' ++ es, by rw [g1, h1, List.append_assoc], ?_⟩
  intro e he
  rcases List.mem_append.mp he with he | he
  · refine (g2 e he).keep ⟨k1.cfg.symm, k1.isClient.symm, k1.suite.symm, k1.explicitLen.symm,
      k1.minProt.symm, k1.keys.symm⟩
  · exact h2 e he

theorem Opens.of (k : Keep s s') {es : List Ev} (h : s'.log = es ++ s.log)
    (he : ∀ e ∈ es, Ev.isOpened e = false) : Opens env s s' :=
  ⟨k, es, h, fun e hm => by have := he e hm; cases e <;> simp_all [Ev.isOpened, EvOk]⟩

theorem SendFrame.opens (h : SendFrame s s') : Opens env s s' := by
  have k := h.keep
  obtain ⟨_, _, _, _, _, es, he, rfl⟩ := h
  exact .of k rfl fun e hm => by have := he e hm; cases e <;> simp_all [Ev.isOpened, Ev.isSend]

theorem openRecord_opens (sl : Bytes) (r : Rec12) (s : Eng) : Opens env s (openRecord env sl r s).2 := by
  unfold openRecord
  split; · exact .refl s
  split; · exact .refl s
  split; · exact .refl s
  rename_i key iv hk
  split; · exact .refl s
  split; · exact .refl s
  rename_i nonce hn
  dsimp only
  split
  · split <;> exact .refl s
  · rename_i plain hp
    have : Opens env s (noteOpened s r (.opened key nonce (openAad s r) (sl.drop (13 + s.explicitLen)) plain
        r.ctype r.epoch r.seq)) := by
      refine ⟨⟨rfl, rfl, rfl, rfl, rfl, rfl⟩, [_], rfl, ?_⟩
      intro e he
      simp at he
      subst he
      exact ⟨iv, _, _, hk, hn, rfl, hp⟩
    split <;> exact this

theorem recordParse_opens (sl : Bytes) (s : Eng) : Opens env s (recordParse env sl s).2 := by
  unfold recordParse
  split
  · split
    · exact .refl s
    · exact openRecord_opens ..
  · exact .refl s
  · exact .refl s

theorem parseSlices_opens (l : List Bytes) (e : SplitEnd) (acc : List Rx) (s : Eng) :
    Opens env s (parseSlices env l e acc s).2 := by
  induction l generalizing acc s with
  | nil => cases e <;> exact .refl s
  | cons sl rest ih =>
    unfold parseSlices
    rw [bind_snd]
    have h := recordParse_opens (env := env) sl s
    split
    · split
      · exact h.trans (ih ..)
      · split
        · exact h
        · exact h.trans (ih ..)
    · exact h

theorem classify_opens (r : Rx) (s : Eng) : Opens env s (classify r s).2 := by
  unfold classify classifyAlert
  repeat' split
  all_goals first
    | exact .refl s
    | exact .of ⟨rfl, rfl, rfl, rfl, rfl, rfl⟩ (es := []) rfl (by simp)

theorem classifyAll_opens (l acc : List Rx) (s : Eng) : Opens env s (classifyAll l acc s).2 := by
  induction l generalizing acc s with
  | nil => exact .refl s
  | cons r rest ih =>
    unfold classifyAll
    rw [bind_snd]
    have h := classify_opens (env := env) r s
    split
    · split
      · exact h.trans (ih ..)
      · exact h.trans (ih ..)
    · exact h

theorem recordsParse_opens (p : Bytes) (s : Eng) : Opens env s (recordsParse env p s).2 := by
  unfold recordsParse
  rw [bind_snd]
  have h := parseSlices_opens (env := env) (split12 p).1 (split12 p).2 [] s
  split
  · exact h.trans (classifyAll_opens ..)
  · exact h

theorem insertIncoming_opens (rs : List Rx) (s : Eng) : Opens env s (insertIncoming env rs s).2 := by
  have quick : ∀ (s : Eng) rx t, Opens env s { s with rx := rx, tick := t } := fun s rx t =>
    .of ⟨rfl, rfl, rfl, rfl, rfl, rfl⟩ (es := []) rfl (by simp)
  unfold insertIncoming
  split
  · exact .refl s
  split
  · exact .refl s
  split
  · rw [bind_snd]
    rename_i r rest _ _ _ _
    have hm := (maybeResend_frame env (r :: rest) s).opens (env := env)
    split
    · refine Opens.trans hm ?_
      unfold insertHandshakeTail insertHs
      dsimp only
      repeat' split
      all_goals first
        | exact .refl _
        | exact quick _ _ _
    · exact hm
  · unfold insertNonHandshake insertBySeq
    dsimp only
    repeat' split
    all_goals first
      | exact .refl _
      | exact quick _ _ _

theorem parsePacket_opens (p : Bytes) (s : Eng) : Opens env s (parsePacket env p s).2 := by
  unfold parsePacket
  rw [bind_snd]
  have h := recordsParse_opens (env := env) p s
  split
  · split
    · exact h
    · exact h.trans (insertIncoming_opens ..)
  · exact h

theorem reparse_opens (l : List Bytes) (s : Eng) : Opens env s (reparse env l s).2 := by
  induction l generalizing s with
  | nil => exact .refl s
  | cons b rest ih =>
    unfold reparse
    rw [bind_snd]
    split
    · exact (parsePacket_opens b s).trans (ih _)
    · exact parsePacket_opens b s

theorem Core.opens {ok : Bytes → Prop} (h : Core env ok s s') : Opens env s s' := by
  have quick : ∀ {s' : Eng}, Keep s s' → s'.log = s.log → Opens env s s' := fun k h =>
    .of k (es := []) h (by simp)
  have k := h.keep
  cases h with
  | packet p => exact parsePacket_opens ..
  | enablePeer =>
    unfold enablePeerEncryption at *
    dsimp only at *
    split
    · exact quick ⟨rfl, rfl, rfl, rfl, rfl, rfl⟩ rfl
    · refine Opens.trans (b := { s with peerEnc := true, rx := _ }) ?_ (reparse_opens ..)
      exact quick ⟨rfl, rfl, rfl, rfl, rfl, rfl⟩ rfl
  | record c e sv fo f h hk => exact (createRecord_frame ..).opens
  | handshake t b hk =>
    unfold createHandshake
    dsimp only
    split
    · exact quick ⟨rfl, rfl, rfl, rfl, rfl, rfl⟩ rfl
    split
    · exact quick ⟨rfl, rfl, rfl, rfl, rfl, rfl⟩ rfl
    · refine Opens.trans ?_ (fragmentLoop_frame ..).opens
      exact quick ⟨rfl, rfl, rfl, rfl, rfl, rfl⟩ rfl
  | timeout now =>
    unfold handleTimeout
    dsimp only
    split
    · exact quick ⟨rfl, rfl, rfl, rfl, rfl, rfl⟩ rfl
    · exact quick ⟨rfl, rfl, rfl, rfl, rfl, rfl⟩ rfl
    · refine Opens.trans ?_ (flightResend_frame ..).opens
      exact quick ⟨rfl, rfl, rfl, rfl, rfl, rfl⟩ rfl
    · exact quick ⟨rfl, rfl, rfl, rfl, rfl, rfl⟩ rfl
  | nextHandshake t =>
    unfold E12.nextHandshake defragment at *
    dsimp only at *
    repeat' split
    all_goals first
      | exact quick ⟨rfl, rfl, rfl, rfl, rfl, rfl⟩ rfl
      | exact .of ⟨rfl, rfl, rfl, rfl, rfl, rfl⟩ (es := [_]) rfl (by simp [Ev.isOpened])
  | nextRecord c =>
    unfold E12.nextRecord at *
    repeat' split
    all_goals exact quick ⟨rfl, rfl, rfl, rfl, rfl, rfl⟩ rfl
  | poll n now =>
    unfold pollOutput pollRest at *
    dsimp only at *
    repeat' split
    all_goals first
      | exact quick ⟨rfl, rfl, rfl, rfl, rfl, rfl⟩ rfl
      | exact .of ⟨rfl, rfl, rfl, rfl, rfl, rfl⟩ (es := [_]) rfl (by simp [Ev.isOpened])
  | _ => exact quick k rfl

/-- Every `opened` event is right. -/
theorem Steps.opened {ok : Bytes → Prop} (h : Steps env ok s s')
    (hs : ∀ e ∈ s.log, EvOk env s e) : ∀ e ∈ s'.log, EvOk env s' e := by
  refine Star.invariant (R := Step env ok) (I := fun s => ∀ e ∈ s.log, EvOk env s e) ?_ h hs
  intro a b hs ha
  have dead : a.keys = none → ∀ e ∈ a.log, Ev.isOpened e = false := by
    intro hk e he
    have := ha e he
    cases e with
    | opened =>
      obtain ⟨iv, x, len, h, _⟩ := this
      simp [Eng.peerKey, hk] at h
    | _ => rfl
  have live : ∀ {c : Eng} {e : Ev}, Ev.isOpened e = false → EvOk env c e := by
    intro c e h
    cases e <;> first | trivial | simp [Ev.isOpened] at h
  cases hs with
  | core h =>
    obtain ⟨k, es, h1, h2⟩ := h.opens
    intro e he
    rw [h1] at he
    rcases List.mem_append.mp he with he | he
    · exact (h2 e he).keep k
    · exact (ha e he).keep k
  | suite cs h =>
    unfold setCipherSuite
    split
    · exact ha
    · intro e he
      exact live (dead h e he)
  | keys k h _ =>
    intro e he
    exact live (dead h e he)

end
end Verif.E12

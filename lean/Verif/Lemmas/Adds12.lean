import Verif.Lemmas.Saga12
/-!
# The transcript of a DTLS 1.2 session as a list of messages
-/
namespace Verif.E12
open Verif Wire Window Timer Aead M

/-- A handshake message: type, message number, body. -/
structure TMsg where
  t : UInt8
  seq : Nat
  body : Bytes
deriving DecidableEq, Repr

/-- A message as RFC 6347, 4.2.6 hashes it: the header of a message sent in one piece, then the body. -/
def TMsg.bytes (m : TMsg) : Bytes :=
  m.t :: (beBytes 3 m.body.length ++ beBytes 2 m.seq ++ beBytes 3 0 ++ beBytes 3 m.body.length ++ m.body)

/-- The messages one after the other. -/
def flat (ms : List TMsg) : Bytes := ms.flatMap TMsg.bytes

/-- Body of the last message of type `t`. -/
def lastOf (t : UInt8) : List TMsg → Option Bytes
  | [] => none
  | m :: ms => match lastOf t ms with
    | some b => some b
    | none => if m.t = t then some m.body else none

theorem flat_append (a b : List TMsg) : flat (a ++ b) = flat a ++ flat b := by
  simp [flat]

theorem flat_one (m : TMsg) : flat [m] = m.bytes := by simp [flat]

theorem transcriptOf_bytes (t : UInt8) (seq : Nat) (b : Bytes) :
    transcriptOf t b.length seq b = flat [⟨t, seq, b⟩] := by
  simp [flat, TMsg.bytes, transcriptOf, serializeHs, serializeHsHeader]

/-- A transcript below 16 MiB determines the messages in it. -/
theorem flat_inj : ∀ (ms ns : List TMsg), flat ms = flat ns → (flat ms).length < 2 ^ 24 →
    ms.map (fun m => (m.t, m.body)) = ns.map (fun m => (m.t, m.body)) := by
  intro ms
  induction ms with
  | nil =>
    intro ns h _
    cases ns with
    | nil => rfl
    | cons n ns => simp [flat, TMsg.bytes] at h
  | cons m ms ih =>
    intro ns h hl
    cases ns with
    | nil => simp [flat, TMsg.bytes] at h
    | cons n ns =>
      have hm : flat (m :: ms) = m.bytes ++ flat ms := rfl
      have hn : flat (n :: ns) = n.bytes ++ flat ns := rfl
      have hl' := hl
      rw [hm] at hl
      rw [h, hn] at hl'
      rw [hm, hn] at h
      simp only [TMsg.bytes, List.length_append, List.length_cons, beBytes_length] at hl hl'
      simp only [TMsg.bytes, List.cons_append, List.cons.injEq, List.append_assoc] at h
      obtain ⟨ht, h⟩ := h
      obtain ⟨h1, h⟩ := List.append_inj h (by simp only [beBytes_length])
      have hlen : m.body.length = n.body.length := by
        have := congrArg ofBe h1
        rwa [ofBe_beBytes, ofBe_beBytes, Nat.mod_eq_of_lt (by omega), Nat.mod_eq_of_lt (by omega)] at this
      obtain ⟨_, h⟩ := List.append_inj h (by simp only [beBytes_length])
      obtain ⟨_, h⟩ := List.append_inj h (by simp only [beBytes_length])
      obtain ⟨_, h⟩ := List.append_inj h (by simp only [beBytes_length])
      obtain ⟨hb, h⟩ := List.append_inj h hlen
      simp only [List.map_cons, List.cons.injEq, Prod.mk.injEq]
      refine ⟨⟨ht, hb⟩, ih ns h ?_⟩
      omega

theorem lastOf_map (t : UInt8) : ∀ ms ns : List TMsg,
    ms.map (fun m => (m.t, m.body)) = ns.map (fun m => (m.t, m.body)) → lastOf t ms = lastOf t ns := by
  intro ms
  induction ms with
  | nil => intro ns h; cases ns with
    | nil => rfl
    | cons => cases h
  | cons m ms ih => intro ns h; cases ns with
    | nil => cases h
    | cons n ns =>
      simp only [List.map_cons, List.cons.injEq, Prod.mk.injEq] at h
      unfold lastOf
      rw [ih ns h.2, h.1.1, h.1.2]

theorem lastOf_none {t : UInt8} {ms : List TMsg} (h : ∀ m ∈ ms, m.t ≠ t) : lastOf t ms = none := by
  induction ms with
  | nil => rfl
  | cons m ms ih =>
    unfold lastOf
    rw [ih fun x hx => h x (List.mem_cons_of_mem _ hx)]
    exact if_neg (h m List.mem_cons_self)

theorem lastOf_append (t : UInt8) (a b : List TMsg) :
    lastOf t (a ++ b) = (lastOf t b).or (lastOf t a) := by
  induction a with
  | nil => simp [lastOf]
  | cons m a ih =>
    simp only [List.cons_append, lastOf, ih]
    cases lastOf t b <;> simp

theorem lastOf_mem {t : UInt8} {ms : List TMsg} {b : Bytes} (h : lastOf t ms = some b) :
    ∃ m ∈ ms, m.t = t ∧ m.body = b := by
  induction ms with
  | nil => cases h
  | cons m ms ih =>
    unfold lastOf at h
    split at h
    · rename_i x hx
      cases h
      obtain ⟨m', h1, h2⟩ := ih hx
      exact ⟨m', List.mem_cons_of_mem _ h1, h2⟩
    · split at h
      · cases h; exact ⟨m, List.mem_cons_self, by assumption, rfl⟩
      · cases h

/-! ## What the functions add to it -/

/-- The transcript got messages with types in `T`. -/
def Adds (T : UInt8 → Prop) (a b : Eng) : Prop :=
  ∃ ms : List TMsg, (∀ m ∈ ms, T m.t) ∧ b.transcript = a.transcript ++ flat ms

section
variable {T : UInt8 → Prop}

theorem Adds.same {a b : Eng} (h : b.transcript = a.transcript) : Adds T a b :=
  ⟨[], nofun, by rw [h]; exact (List.append_nil _).symm⟩

theorem Adds.refl (a : Eng) : Adds T a a := .same rfl

theorem Adds.trans {a b c : Eng} (h : Adds T a b) (g : Adds T b c) : Adds T a c := by
  obtain ⟨x, h1, h2⟩ := h
  obtain ⟨y, g1, g2⟩ := g
  refine ⟨x ++ y, fun m hm => ?_, by rw [g2, h2, flat_append, List.append_assoc]⟩
  rcases List.mem_append.mp hm with hm | hm
  · exact h1 m hm
  · exact g1 m hm

theorem createHandshake_msg (env : Env) (t : UInt8) (b : Bytes) (s : Eng) :
    (createHandshake env t b s).2.transcript = s.transcript ++ flat [⟨t, s.nextSeq, b⟩] := by
  rw [← transcriptOf_bytes]
  unfold createHandshake
  dsimp only
  split
  · rfl
  split
  · rfl
  · obtain ⟨_, _, _, _, _, _, _, h⟩ := fragmentLoop_frame env t s.nextSeq b (s.overhead (msgEpoch t)) (b.length + 1) 0
      { s with transcript := s.transcript ++ transcriptOf t b.length s.nextSeq b, nextSeq := s.nextSeq + 1 }
    rw [h]

theorem createHandshake_adds (env : Env) (t : UInt8) (ht : T t) (b : Bytes) (s : Eng) :
    Adds T s (createHandshake env t b s).2 :=
  ⟨[⟨t, s.nextSeq, b⟩], by simpa using ht, createHandshake_msg env t b s⟩

/-- At most the message asked for. -/
theorem nextHandshake_msg (env : Env) (t : UInt8) (e : Eng) :
    (nextHandshake env t e).2.transcript = e.transcript ∨
    ∃ seq body, (nextHandshake env t e).2.transcript = e.transcript ++ flat [⟨t, seq, body⟩] := by
  by_cases hc : hasComplete e t = true
  · obtain ⟨first, rest, hv, hq, hty⟩ := hasComplete_first hc
    unfold nextHandshake
    rw [hc, hv]
    simp only [Bool.not_true, Bool.false_eq_true, if_false]
    unfold defragment
    dsimp only
    split; · exact .inl rfl
    split; · exact .inl rfl
    rename_i hl
    have hl : ((fragmentRun first rest).flatMap (·.body)).length = first.header.length := Classical.not_not.1 hl
    have key : transcriptOf first.header.msgType first.header.length first.header.messageSeq
        ((fragmentRun first rest).flatMap (·.body)) =
        flat [⟨t, first.header.messageSeq, (fragmentRun first rest).flatMap (·.body)⟩] := by
      rw [← transcriptOf_bytes, hl, hty]
    split; · exact .inl rfl
    split; · exact .inl rfl
    split
    · exact .inr ⟨_, _, by show _ ++ _ = _; rw [key]⟩
    · exact .inr ⟨_, _, by show _ ++ _ = _; rw [key]⟩
  · unfold nextHandshake
    rw [if_pos (by simpa using hc)]
    exact .inl rfl

theorem nextHandshake_adds (env : Env) (t : UInt8) (ht : T t) (e : Eng) : Adds T e (nextHandshake env t e).2 := by
  rcases nextHandshake_msg env t e with h | ⟨seq, body, h⟩
  · exact .same h
  · exact ⟨[⟨t, seq, body⟩], by simpa using ht, h⟩

theorem nextRecord_sameT (c : UInt8) (e : Eng) : (nextRecord c e).2.transcript = e.transcript := by
  unfold nextRecord
  repeat' split
  all_goals rfl

theorem enablePeer_sameT (env : Env) (e : Eng) : (enablePeerEncryption env e).2.transcript = e.transcript :=
  (inFrame_sameT env).enablePeer e

variable {St α β : Type}

/-- `m` adds messages with types in `T` only. -/
def AFr (T : UInt8 → Prop) (m : P St α) : Prop := ∀ s, Adds T s.eng (m s).2.eng

theorem AFr.pure (a : α) : AFr T (M.pure a : P St α) := fun _ => .refl _
theorem AFr.get : AFr T (M.get : P St (Ses St)) := fun _ => .refl _
theorem AFr.fail (f : Fault) : AFr T (M.fail f : P St α) := fun _ => .refl _
theorem AFr.fatal (e : Error) : AFr T (M.fatal e : P St α) := .fail _
theorem AFr.transient : AFr T (M.transient : P St α) := .fail _
theorem AFr.panic : AFr T (M.panic : P St α) := .fail _

theorem AFr.bind {m : P St α} {f : α → P St β} (h1 : AFr T m) (h2 : ∀ a, AFr T (f a)) : AFr T (M.bind m f) := by
  intro s
  rw [bind_snd]
  split
  · exact (h1 s).trans (h2 _ (m s).2)
  · exact h1 s

theorem AFr.modify {f : Ses St → Ses St} (h : ∀ s, (f s).eng.transcript = s.eng.transcript) : AFr T (M.modify f) :=
  fun s => .same (h s)
theorem AFr.check (c : Bool) (e : Error) : AFr T (check c e : P St Unit) := by
  unfold E12.check; split
  · exact .pure _
  · exact .fatal _
theorem AFr.orFatal (o : Option α) (e : Error) : AFr T (orFatal o e : P St α) := by
  cases o
  · exact .fatal _
  · exact .pure _
theorem AFr.orPanic (o : Option α) : AFr T (orPanic o : P St α) := by
  cases o
  · exact .panic
  · exact .pure _
theorem AFr.orTransient (o : Option α) : AFr T (orTransient o : P St α) := by
  cases o
  · exact .transient
  · exact .pure _
theorem AFr.onEng {m : E α} (h : ∀ e, Adds T e (m e).2) : AFr T (E12.onEng m : P St α) := fun s => h s.eng
theorem AFr.onEng' {f : Eng → Eng} (h : ∀ e, (f e).transcript = e.transcript) :
    AFr T (E12.onEng' f : P St Unit) := fun s => .same (h s.eng)
theorem AFr.verifyData (env : Env) (b) : AFr T (E12.onEng (generateVerifyData env b) : P St Bytes) :=
  .onEng fun e => by rw [generateVerifyData_snd]; exact .refl e
theorem AFr.drawTick : AFr T (drawTick : P St Nat) := fun _ => .same rfl

theorem AFr.wp {m : P St α} (h : AFr T m) (s : Ses St) :
    M.wp m s (fun _ s' => Adds T s.eng s'.eng) (fun _ s' => Adds T s.eng s'.eng) :=
  to_wp (R := fun s' : Ses St => Adds T s.eng s'.eng) (h s)

end

/-- Prove `AFr T` of a function by its syntax. -/
macro "afr" : tactic => `(tactic|
  repeat' first
    | with_reducible exact AFr.pure _
    | with_reducible exact AFr.get
    | with_reducible exact AFr.fatal _
    | with_reducible exact AFr.transient
    | with_reducible exact AFr.panic
    | with_reducible exact AFr.fail _
    | with_reducible exact AFr.check _ _
    | with_reducible exact AFr.orFatal _ _
    | with_reducible exact AFr.orPanic _
    | with_reducible exact AFr.orTransient _
    | with_reducible exact AFr.verifyData _ _
    | with_reducible exact AFr.drawTick
    | with_reducible exact AFr.onEng fun _ => createHandshake_adds _ _ (by decide) _ _
    | with_reducible exact AFr.onEng fun _ => Adds.same (send_transcript _ _ _ _ _ _ _)
    | with_reducible exact AFr.onEng fun _ => nextHandshake_adds _ _ (by decide) _
    | with_reducible exact AFr.onEng fun _ => Adds.same (nextRecord_sameT _ _)
    | with_reducible exact AFr.onEng fun _ => Adds.same (enablePeer_sameT _ _)
    | (with_reducible refine AFr.onEng' ?_) <;> exact fun _ => rfl
    | (with_reducible refine AFr.modify ?_) <;> exact fun _ => rfl
    | assumption
    | with_reducible refine AFr.bind ?_ (fun _ => ?_)
    | split)

/-- Neither hello. -/
def NotHello (t : UInt8) : Prop := t ≠ 1 ∧ t ≠ 2

instance (t : UInt8) : Decidable (NotHello t) := by unfold NotHello; infer_instance

section
variable {St : Type} {env : PEnv} {T : UInt8 → Prop}

theorem announce_afr (a : St) (f g) : AFr T (announceConnected env a f g) := by
  unfold announceConnected; simp only [bind_eq, pure_eq]; afr
theorem ccs_afr (a b : St) : AFr T (awaitChangeCipherSpec env a b) := by
  unfold awaitChangeCipherSpec; simp only [bind_eq, pure_eq]; afr
theorem derive_afr (a b c d) : AFr T (deriveMaster env a b c d : P St Unit) := by
  unfold deriveMaster; simp only [bind_eq]; afr
theorem app_afr (a c : St) : AFr T (awaitApplicationData env a c) := fun s => .same (app_still a c s).1.same

end

theorem C12.step_afr {env : PEnv} (st : CSt) (h1 : st ≠ .awaitServerHello) (h2 : st ≠ .sendClientHello)
    (h3 : st ≠ .awaitHelloVerifyRequest) : AFr NotHello (C12.step env st) := by
  have g4 := fun a b c d => derive_afr (St := CSt) (T := NotHello) (env := env) a b c d
  have g2 := fun a f g => announce_afr (St := CSt) (T := NotHello) (env := env) a f g
  cases st
  case awaitServerHello => exact absurd rfl h1
  case sendClientHello => exact absurd rfl h2
  case awaitHelloVerifyRequest => exact absurd rfl h3
  case awaitApplicationData => exact app_afr _ _
  case awaitChangeCipherSpec => exact ccs_afr _ _
  case closed => exact .pure _
  all_goals
    unfold step
    first
      | (unfold awaitCertificate; simp only [bind_eq, pure_eq]; afr; done)
      | (unfold awaitServerKeyExchange awaitServerKeyExchangePsk awaitServerKeyExchangeEcdhe processEcdh
         simp only [bind_eq, pure_eq]; afr; done)
      | (unfold awaitCertificateRequest; simp only [bind_eq, pure_eq]; afr; done)
      | (unfold awaitServerHelloDone; simp only [bind_eq, pure_eq]; afr; done)
      | (unfold sendCertificate; simp only [bind_eq, pure_eq]; afr; done)
      | (unfold sendClientKeyExchange clientKeyExchangeBody; simp only [bind_eq, pure_eq]; afr; done)
      | (unfold sendCertificateVerify certificateVerifyBody; simp only [bind_eq, pure_eq]; afr; done)
      | (unfold sendChangeCipherSpec deriveKeys; simp only [bind_eq, pure_eq]; afr; exact g4 _ _ _ _; done)
      | (unfold sendFinished; simp only [bind_eq, pure_eq]; afr; done)
      | (unfold awaitNewSessionTicket; simp only [bind_eq, pure_eq]; afr; done)
      | (unfold awaitFinished; simp only [bind_eq, pure_eq]; afr; exact g2 _ _ _; done)

theorem S12.step_afr {env : PEnv} (st : SSt) (h1 : st ≠ .awaitClientHello) (h2 : st ≠ .sendServerHello) :
    AFr NotHello (S12.step env st) := by
  have g4 := fun a b c d => derive_afr (St := SSt) (T := NotHello) (env := env) a b c d
  have g2 := fun a f g => announce_afr (St := SSt) (T := NotHello) (env := env) a f g
  cases st
  case awaitClientHello => exact absurd rfl h1
  case sendServerHello => exact absurd rfl h2
  case awaitApplicationData => exact app_afr _ _
  case awaitChangeCipherSpec => exact ccs_afr _ _
  case closed => exact .pure _
  all_goals
    unfold step
    first
      | (unfold sendCertificate; simp only [bind_eq, pure_eq]; afr; done)
      | (unfold sendServerKeyExchange sendServerKeyExchangePsk sendServerKeyExchangeEcdhe serverKeyExchangeBody
         simp only [bind_eq, pure_eq]; afr; done)
      | (unfold sendCertificateRequest; simp only [bind_eq, pure_eq]; afr; done)
      | (unfold sendServerHelloDone; simp only [bind_eq, pure_eq]; afr; done)
      | (unfold awaitCertificate; simp only [bind_eq, pure_eq]; afr; done)
      | (unfold awaitClientKeyExchange clientKxPsk clientKxEcdh finishClientKx; simp only [bind_eq, pure_eq]; afr
         all_goals exact g4 _ _ _ _
         done)
      | (unfold awaitCertificateVerify; simp only [bind_eq, pure_eq]; afr; done)
      | (unfold awaitFinished; simp only [bind_eq, pure_eq]; afr; done)
      | (unfold sendChangeCipherSpec; simp only [bind_eq, pure_eq]; afr; done)
      | (unfold sendFinished; simp only [bind_eq]; afr; exact g2 _ _ _; done)

end Verif.E12

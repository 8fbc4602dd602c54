import Verif.Lemmas.Order13
import Verif.Lemmas.Sent13
/-!
# What a DTLS 1.3 session remembers of its handshake

`Grow` relates engines and `Near`, `Later` sessions before and after: what the handshake established is
still there.
-/
namespace Verif.E13
open Verif Wire Window Timer Aead M
open Verif.E12 (Call)

/-- The log and the transcript only grow; suite and the release of application data stay. -/
structure Grow (e e' : Eng) : Prop where
  suite : e'.suite = e.suite
  release : e'.release = e.release
  log : ∃ es, e'.log = es ++ e.log
  transcript : ∃ t, e'.transcript = e.transcript ++ t

theorem Grow.refl (e : Eng) : Grow e e := ⟨rfl, rfl, ⟨[], rfl⟩, ⟨[], (List.append_nil _).symm⟩⟩

theorem Grow.trans {a b c : Eng} (h : Grow a b) (g : Grow b c) : Grow a c := by
  obtain ⟨h1, h2, ⟨x, h3⟩, ⟨y, h4⟩⟩ := h
  obtain ⟨g1, g2, ⟨x', g3⟩, ⟨y', g4⟩⟩ := g
  exact ⟨g1.trans h1, g2.trans h2, ⟨x' ++ x, by rw [g3, h3, List.append_assoc]⟩,
    ⟨y ++ y', by rw [g4, h4, List.append_assoc]⟩⟩

theorem Grow.after {a b c : Eng} (g : Grow b c) (h : Grow a b) : Grow a c := h.trans g

/-- Nothing of it is touched but the log. -/
theorem Grow.of {e e' : Eng} (es : List Ev) (h1 : e'.suite = e.suite) (h2 : e'.release = e.release)
    (h3 : e'.log = es ++ e.log) (h4 : e'.transcript = e.transcript) : Grow e e' :=
  ⟨h1, h2, ⟨es, h3⟩, ⟨[], h4.trans (List.append_nil _).symm⟩⟩

theorem Grow.same {e e' : Eng} (h1 : e'.suite = e.suite) (h2 : e'.release = e.release)
    (h3 : e'.log = e.log) (h4 : e'.transcript = e.transcript) : Grow e e' := .of [] h1 h2 h3 h4

theorem wp_done {σ α : Type} {m : M σ α} {s s' : σ} {a : α} {Q : α → σ → Prop} {F : Fault → σ → Prop}
    (h : m s = (.ok a, s')) (q : Q a s') : wp m s Q F := by
  unfold wp; rw [h]; exact q

theorem wp_failed {σ α : Type} {m : M σ α} {s s' : σ} {f : Fault} {Q : α → σ → Prop} {F : Fault → σ → Prop}
    (h : m s = (.fail f, s')) (q : F f s') : wp m s Q F := by
  unfold wp; rw [h]; exact q

/-- `m` lets the engine grow. -/
def GFr {α : Type} (m : E α) : Prop := ∀ e, Grow e (m e).2

section
variable {α β : Type}
theorem GFr.pure (a : α) : GFr (M.pure a : E α) := fun e => .refl e
theorem GFr.fail (f : Fault) : GFr (M.fail f : E α) := fun e => .refl e
theorem GFr.panic : GFr (M.panic : E α) := fun e => .refl e
theorem GFr.transient : GFr (M.transient : E α) := fun e => .refl e
theorem GFr.get : GFr (M.get : E Eng) := fun e => .refl e
theorem GFr.bind {m : E α} {f : α → E β} (h : GFr m) (g : ∀ a, GFr (f a)) : GFr (M.bind m f) := by
  intro e
  rw [bind_snd]
  split
  · exact (h e).trans (g _ _)
  · exact h e
theorem GFr.modify {f : Eng → Eng} (h : ∀ e, Grow e (f e)) : GFr (M.modify f) := fun e => h e
theorem GFr.same {f : Eng → Eng} (h1 : ∀ e, (f e).suite = e.suite) (h2 : ∀ e, (f e).release = e.release)
    (h3 : ∀ e, (f e).log = e.log) (h4 : ∀ e, (f e).transcript = e.transcript) : GFr (M.modify f) :=
  fun e => .same (h1 e) (h2 e) (h3 e) (h4 e)
end

section engine
variable (env : Env)

theorem createPlain_grow (c sv f) : GFr (createPlain c sv f) := by
  intro s
  refine createPlain_ind (motive := fun r => Grow s r.2) c sv f s (fun _ _ => .refl s)
    (fun _ _ _ => .same rfl rfl rfl rfl) (fun _ _ _ => ?_)
  unfold emitPlain pushWire
  split <;> exact .of [_] rfl rfl rfl rfl

theorem createCipher_grow (c ep sv f) : GFr (createCipher env c ep sv f) := by
  intro s
  refine createCipher_ind (motive := fun r => Grow s r.2) env c ep sv f s (fun _ _ => .refl s)
    (fun _ _ _ => .same rfl rfl rfl rfl) (fun _ _ _ _ _ _ _ _ => .of [_] rfl rfl rfl rfl)
    (fun suite tag k ct _ _ _ _ => ?_)
  unfold emitCipher
  dsimp only
  obtain ⟨a1, a2, a3, a4, a5, h1⟩ := countSent_eq (sealedSt (savedAs s sv (entryOf s c ep f)) k ep) (s.slot ep) ep
  rw [h1]
  unfold pushWire
  split <;> exact .of [_, _] rfl rfl rfl rfl

theorem resendEntry_grow (x) : GFr (resendEntry env x) := by
  intro s
  unfold resendEntry
  split
  · exact GFr.bind (createPlain_grow _ _ _) (fun _ => .pure _) s
  · exact GFr.bind (createCipher_grow env _ _ _ _) (fun _ => .pure _) s

theorem resendLoop_grow (l) : GFr (resendLoop env l) := by
  induction l with
  | nil => exact .pure _
  | cons x l ih =>
    unfold resendLoop
    split
    · exact .bind ih fun _ => .pure _
    · exact .bind (resendEntry_grow env x) fun _ => .bind ih fun _ => .pure _

theorem flightResend_grow : GFr (flightResend env) := by
  intro s
  unfold flightResend
  refine .after (GFr.bind (resendLoop_grow env s.saved) (fun _ => ?_) _) (.same rfl rfl rfl rfl)
  exact .same (fun _ => rfl) (fun _ => rfl) (fun _ => rfl) (fun _ => rfl)

theorem flightBegin_grow (s : Eng) : Grow s (flightBegin env s) := .same rfl rfl rfl rfl
theorem flightStop_grow (s : Eng) : Grow s (flightStop s) := .same rfl rfl rfl rfl
theorem cancelFlights_grow (s : Eng) : Grow s (cancelFlights s) := .same rfl rfl rfl rfl
theorem abort_grow (s : Eng) : Grow s (abort s) := .same rfl rfl rfl rfl

theorem fragmentLoop_grow (t : UInt8) (seq ep fixed : Nat) (body : Bytes) (n off : Nat) :
    GFr (fragmentLoop env t seq ep fixed body n off) := by
  induction n generalizing off with
  | zero => exact .fail _
  | succ n ih =>
    unfold fragmentLoop
    split
    · refine .bind .get fun s => .bind ?_ fun _ => ?_
      · unfold createHsRecord
        split
        · exact createPlain_grow _ _ _
        · exact createCipher_grow env _ _ _ _
      · split
        · exact .pure _
        · exact ih _
    · exact .pure _

/-- `create_handshake` appends the message to the transcript, whatever happens after. -/
theorem createHandshake_tr (t : UInt8) (body : Bytes) (s : Eng) :
    Grow { s with transcript := s.transcript ++ transcriptOf t body.length body } (createHandshake env t body s).2 := by
  unfold createHandshake
  dsimp only
  split
  · exact .refl _
  · split
    · exact .same rfl rfl rfl rfl
    · exact .after (fragmentLoop_grow env _ _ _ _ _ _ _ _) (.same rfl rfl rfl rfl)

theorem createHandshake_grow (t body) : GFr (createHandshake env t body) := fun s =>
  .after (createHandshake_tr env t body s) ⟨rfl, rfl, ⟨[], rfl⟩, ⟨_, rfl⟩⟩

theorem advancePeerSeq_grow : GFr advancePeerSeq := by
  intro s
  unfold advancePeerSeq
  split
  · exact .refl _
  · exact .of [_] rfl rfl rfl rfl

theorem nextHandshakeWith_grow (a i t) : GFr (nextHandshakeWith env a i t) := by
  intro s
  unfold nextHandshakeWith
  split
  · exact .refl _
  · split
    · exact .refl _
    · unfold defragment
      dsimp only
      split
      · exact .refl _
      · split
        · exact .refl _
        · split
          · exact .same rfl rfl rfl rfl
          · split
            · exact .same rfl rfl rfl rfl
            · split
              · exact ⟨rfl, rfl, ⟨[_], rfl⟩, ⟨_, rfl⟩⟩
              · exact .of [_] rfl rfl rfl rfl

/-- `next_handshake` took the message of the wanted type with this body: it is parsed, logged and in the
transcript; or there was none. -/
theorem nextHandshakeWith_ok (a : Bool) (t : UInt8) (s : Eng) (ht : isUnknownType t = false) :
    wp (nextHandshakeWith env a true t) s
      (fun m e => Grow s e ∧ ((m = none ∧ e = s) ∨ ∃ b seq body, m = some b ∧
        e.log = .taken seq t body :: s.log ∧ parseBody env a t s.suite body = some ([], b) ∧
        e.transcript = s.transcript ++ transcriptOf t body.length body))
      (fun _ e => Grow s e ∧ e.log = s.log ∧ e.transcript = s.transcript) := by
  by_cases hc : hasComplete s t = true
  · have hn : nextHandshakeWith env a true t s = match nextView s.rx with
        | [] => (.fail .panic, s)
        | first :: rest => defragment env a true first rest s := by
      unfold nextHandshakeWith; rw [if_neg (by simp [hc])]; rfl
    cases hv : nextView s.rx with
    | nil =>
      rw [hv] at hn
      exact wp_failed hn ⟨.refl _, rfl, rfl⟩
    | cons first rest =>
      rw [hv] at hn
      dsimp only at hn
      have hf := first_of (s := s) (t := t) (first := first) (rest := rest) hc hv
      unfold defragment at hn
      dsimp only at hn
      split at hn
      · exact wp_failed hn ⟨.refl _, rfl, rfl⟩
      · split at hn
        · exact wp_failed hn ⟨.refl _, rfl, rfl⟩
        · rename_i hl
          split at hn
          · exact wp_failed hn ⟨.same rfl rfl rfl rfl, rfl, rfl⟩
          · rename_i left b hb
            split at hn
            · exact wp_failed hn ⟨.same rfl rfl rfl rfl, rfl, rfl⟩
            · rename_i hu
              rw [hf.2, ht] at hu
              have hle : left = [] := by simpa using hu
              subst hle
              rw [hf.2] at hb
              refine wp_done hn ⟨⟨rfl, rfl, ⟨[_], rfl⟩, ⟨_, rfl⟩⟩, .inr ⟨b, first.header.messageSeq,
                assembled first (fragmentRun first rest).tail, rfl, ?_, hb, ?_⟩⟩
              · dsimp only; rw [hf.2]
              · dsimp only
                rw [if_pos rfl, hf.2, Decidable.not_not.mp hl]
  · have hn : nextHandshakeWith env a true t s = (.ok none, s) := by
      unfold nextHandshakeWith; rw [if_pos (by simpa using hc)]
    exact wp_done hn ⟨.refl _, .inl ⟨rfl, rfl⟩⟩

theorem nextHandshake_ok (t : UInt8) (s : Eng) (ht : isUnknownType t = false) :
    wp (nextHandshake env t) s
      (fun m e => Grow s e ∧ ((m = none ∧ e = s) ∨ ∃ b seq body, m = some b ∧
        e.log = .taken seq t body :: s.log ∧ parseBody env false t s.suite body = some ([], b) ∧
        e.transcript = s.transcript ++ transcriptOf t body.length body))
      (fun _ e => Grow s e ∧ e.log = s.log ∧ e.transcript = s.transcript) :=
  nextHandshakeWith_ok env false t s ht

theorem deriveEpochKeys_grow (x) : GFr (deriveEpochKeys env x) := by
  intro s
  unfold deriveEpochKeys
  repeat' split
  all_goals exact .refl _

theorem deriveNextSecret_grow (x) : GFr (deriveNextSecret env x) := by
  intro s
  unfold deriveNextSecret
  repeat' split
  all_goals exact .refl _

theorem installHandshakeKeys_grow (a b) : GFr (installHandshakeKeys env a b) := by
  unfold installHandshakeKeys
  exact .bind .get fun _ => .bind (deriveEpochKeys_grow env _) fun _ =>
    .bind (.same (fun _ => rfl) (fun _ => rfl) (fun _ => rfl) (fun _ => rfl)) fun _ =>
    .bind (deriveEpochKeys_grow env _) fun _ => .same (fun _ => rfl) (fun _ => rfl) (fun _ => rfl) (fun _ => rfl)

theorem installApplicationKeys_grow (a b) : GFr (installApplicationKeys env a b) := by
  unfold installApplicationKeys
  refine .bind .get fun _ => .bind (deriveEpochKeys_grow env _) fun _ =>
    .bind (.same (fun _ => rfl) (fun _ => rfl) (fun _ => rfl) (fun _ => rfl)) fun _ =>
    .bind (deriveEpochKeys_grow env _) fun _ => .bind .get fun _ => ?_
  split
  · exact .panic
  · exact .same (fun _ => rfl) (fun _ => rfl) (fun _ => rfl) (fun _ => rfl)

theorem updateSendKeys_grow : GFr (updateSendKeys env) := by
  intro s
  unfold updateSendKeys
  split
  · exact .refl _
  · refine .after (GFr.bind (deriveNextSecret_grow env _) (fun _ =>
      .bind (deriveEpochKeys_grow env _) fun _ => .bind .get fun _ => ?_) _) (.same rfl rfl rfl rfl)
    split
    · exact .panic
    · exact .modify fun _ => .of [_] rfl rfl rfl rfl

theorem updateRecvKeys_grow : GFr (updateRecvKeys env) := by
  intro s
  unfold updateRecvKeys
  split
  · exact .refl _
  · refine GFr.bind (deriveNextSecret_grow env _) (fun _ => ?_) s
    split
    · exact .panic
    · exact .bind (deriveEpochKeys_grow env _) fun _ =>
        .same (fun _ => rfl) (fun _ => rfl) (fun _ => rfl) (fun _ => rfl)

theorem createKeyUpdate_grow (r) : GFr (createKeyUpdate env r) := by
  unfold createKeyUpdate
  refine .bind (.modify (flightBegin_grow env)) fun _ => .bind .get fun _ => ?_
  split
  · exact .panic
  · exact .bind (.same (fun _ => rfl) (fun _ => rfl) (fun _ => rfl) (fun _ => rfl)) fun _ =>
      .bind (createCipher_grow env _ _ _ _) fun _ => .modify fun _ => .of [_] rfl rfl rfl rfl

theorem sendAckInner_grow (sv) : GFr (sendAckInner env sv) := by
  intro s
  unfold sendAckInner
  split
  · exact .refl _
  · exact .after (createCipher_grow env _ _ _ _ _) (.same rfl rfl rfl rfl)

theorem sendAck_grow : GFr (sendAck env) := sendAckInner_grow env false

theorem sendAckRetransmittable_grow : GFr (sendAckRetransmittable env) := by
  intro s
  unfold sendAckRetransmittable
  refine .after (sendAckInner_grow env true _) ?_
  split <;> exact .same rfl rfl rfl rfl

theorem ackHandshakeFlight_grow (s : Eng) : Grow s (ackHandshakeFlight s) := by
  unfold ackHandshakeFlight
  split <;> exact .same rfl rfl rfl rfl

theorem ackKeyUpdate_grow : GFr (ackKeyUpdate env) := by
  intro s
  unfold ackKeyUpdate
  split
  · refine GFr.bind (updateSendKeys_grow env) (fun _ => ?_) s
    exact .same (fun _ => rfl) (fun _ => rfl) (fun _ => rfl) (fun _ => rfl)
  · exact .refl _

theorem processAck_grow (d) : GFr (processAck env d) := by
  intro s
  unfold processAck
  split
  · exact .refl _
  · exact .after (.trans (ackHandshakeFlight_grow _) (ackKeyUpdate_grow env _)) (.same rfl rfl rfl rfl)

theorem openRecord_grow (b f r) : GFr (openRecord env b f r) := by
  intro s
  have h : ∀ k a c p ep n, Grow s (noteOpened s k a c p ep n) := by
    intro k a c p ep n
    unfold noteOpened Eng.replayUpdate
    split <;> exact .of [_] rfl rfl rfl rfl
  unfold openRecord
  dsimp only
  repeat' split
  all_goals first
    | exact .refl _
    | exact h _ _ _ _ _ _

theorem recordParse_grow (b) : GFr (recordParse env b) := by
  intro s
  unfold recordParse
  dsimp only
  repeat' split
  all_goals first
    | exact .refl _
    | exact openRecord_grow env _ _ _ s

theorem parseSlices_grow (l e acc) : GFr (parseSlices env l e acc) := by
  induction l generalizing acc with
  | nil => cases e <;> first | exact .pure _ | exact .transient
  | cons x l ih =>
    unfold parseSlices
    refine .bind (recordParse_grow env x) fun r => ?_
    split
    · exact ih _
    · split
      · exact .transient
      · exact ih _

theorem classify_grow (r) : GFr (classify env r) := by
  intro s
  unfold classify
  repeat' split
  all_goals first
    | exact .refl _
    | exact GFr.bind (processAck_grow env _) (fun _ => .pure _) s
    | skip
  unfold classifyAlert
  repeat' split
  all_goals first
    | exact .refl _
    | exact .same rfl rfl rfl rfl

theorem classifyAll_grow (l acc) : GFr (classifyAll env l acc) := by
  induction l generalizing acc with
  | nil => exact .pure _
  | cons r l ih =>
    unfold classifyAll
    refine .bind (classify_grow env r) fun o => ?_
    split <;> exact ih _

theorem insertHs_grow (rs) : GFr (insertHs env rs) := by
  intro s
  unfold insertHs
  dsimp only
  repeat' split
  all_goals exact .same rfl rfl rfl rfl

theorem insertBySeq_grow (rs) : GFr (insertBySeq env rs) := by
  intro s
  unfold insertBySeq
  dsimp only
  repeat' split
  all_goals exact .same rfl rfl rfl rfl

theorem maybeResend_grow (rs) : GFr (maybeResend env rs) := by
  intro s
  unfold maybeResend
  repeat' split
  all_goals first
    | exact .refl _
    | exact flightResend_grow env s

theorem insertIncoming_grow (rs) : GFr (insertIncoming env rs) := by
  intro s
  unfold insertIncoming
  split
  · exact .refl _
  · split
    · exact .refl _
    · split
      · refine GFr.bind (maybeResend_grow env _) (fun _ => ?_) s
        intro s
        unfold insertHandshakeTail
        repeat' split
        all_goals first
          | exact .refl _
          | exact insertHs_grow env _ s
      · exact insertBySeq_grow env _ s

theorem parsePacket_grow (p) : GFr (parsePacket env p) := by
  unfold parsePacket recordsParse
  refine .bind (.bind (parseSlices_grow env _ _ _) fun _ => classifyAll_grow env _ _) fun rs => ?_
  split
  · exact .pure _
  · exact insertIncoming_grow env _

theorem reparse_grow (l) : GFr (reparse env l) := by
  induction l with
  | nil => exact .pure _
  | cons b l ih => exact .bind (parsePacket_grow env b) fun _ => ih

theorem enablePeerEncryption_grow : GFr (enablePeerEncryption env) := by
  intro s
  unfold enablePeerEncryption
  dsimp only
  split
  · exact .same rfl rfl rfl rfl
  · exact .after (reparse_grow env _ _) (.same rfl rfl rfl rfl)

theorem scheduleAck_grow (n) (s : Eng) : Grow s (scheduleAck n s) := by
  unfold scheduleAck
  repeat' split
  all_goals exact .same rfl rfl rfl rfl

theorem flushAck_grow (n) : GFr (flushAck env n) := by
  intro s
  unfold flushAck
  dsimp only
  repeat' split
  all_goals first
    | exact .same rfl rfl rfl rfl
    | exact .after (createCipher_grow env _ _ _ _ _) (.same rfl rfl rfl rfl)

theorem handleTimeout_grow (n) : GFr (handleTimeout env n) := by
  intro s
  unfold handleTimeout
  have hd : GFr (ackDuty env n) := fun s => .trans (scheduleAck_grow n s) (flushAck_grow env n _)
  generalize s.timers.handle s.cfg.handshakeTimeout n (env.jitter s.tick) = x
  obtain ⟨t, fired⟩ := x
  dsimp only
  split
  · exact .same rfl rfl rfl rfl
  · exact .same rfl rfl rfl rfl
  · exact .same rfl rfl rfl rfl
  · exact .after (hd _) (.same rfl rfl rfl rfl)
  · exact .after (GFr.bind (flightResend_grow env) (fun _ => hd) _) (.same rfl rfl rfl rfl)

theorem pollOutput_grow (b n) (s : Eng) : Grow s (pollOutput b n s).2 := by
  have hr : ∀ s, Grow s (pollRest b n s).2 := by
    intro s
    unfold pollRest
    dsimp only
    refine .trans (scheduleAck_grow n s) ?_
    repeat' split
    all_goals first
      | exact .same rfl rfl rfl rfl
      | exact .of [_] rfl rfl rfl rfl
  unfold pollOutput
  dsimp only
  refine .trans (b := purge s) (.same rfl rfl rfl rfl) ?_
  repeat' split
  all_goals first
    | exact .refl _
    | exact .of [_] rfl rfl rfl rfl
    | exact hr _

end engine

/-! ## Sessions -/

section sessions
variable {St : Type}

/-- What the handshake established is still there. -/
structure Near (s s' : Ses St) : Prop where
  peerCerts : s'.peerCerts = s.peerCerts
  hsSecret : s'.hsSecret = s.hsSecret
  clientHs : s'.clientHs = s.clientHs
  serverHs : s'.serverHs = s.serverHs
  kx : s'.kx = s.kx
  shared : s'.shared = s.shared
  told : s'.events.count .connected = s.events.count .connected
  grow : Grow s.eng s'.eng

/-- Also what was negotiated in extensions, and what is kept for the ServerHello. -/
structure Later (s s' : Ses St) : Prop extends Near s s' where
  srtp : s'.srtp = s.srtp
  authRequested : s'.authRequested = s.authRequested
  extData : s'.extData = s.extData

/-- A relation on sessions that growing engines satisfy. -/
structure SRel (V : Ses St → Ses St → Prop) : Prop where
  refl : ∀ s, V s s
  trans : ∀ a b c, V a b → V b c → V a c
  eng : ∀ s e, Grow s.eng e → V s { s with eng := e }

/-- A relation between `Later` and `Near`. -/
structure SRelL (V : Ses St → Ses St → Prop) : Prop extends SRel V where
  near : ∀ s s', V s s' → Near s s'
  later : ∀ s s', Later s s' → V s s'

theorem Near.rel : SRelL (Near (St := St)) where
  refl _ := ⟨rfl, rfl, rfl, rfl, rfl, rfl, rfl, .refl _⟩
  trans _ _ _ h g := ⟨g.1.trans h.1, g.2.trans h.2, g.3.trans h.3, g.4.trans h.4, g.5.trans h.5,
    g.6.trans h.6, g.7.trans h.7, h.8.trans g.8⟩
  eng _ _ h := ⟨rfl, rfl, rfl, rfl, rfl, rfl, rfl, h⟩
  near _ _ h := h
  later _ _ h := h.toNear

theorem Later.rel : SRelL (Later (St := St)) where
  refl s := ⟨Near.rel.refl s, rfl, rfl, rfl⟩
  trans _ _ _ h g := ⟨Near.rel.trans _ _ _ h.toNear g.toNear, g.srtp.trans h.srtp,
    g.authRequested.trans h.authRequested, g.extData.trans h.extData⟩
  eng s e h := ⟨Near.rel.eng s e h, rfl, rfl, rfl⟩
  near _ _ h := h.toNear
  later _ _ h := h

theorem Near.mod {s s' : Ses St} (h1 : s'.peerCerts = s.peerCerts) (h2 : s'.hsSecret = s.hsSecret)
    (h3 : s'.clientHs = s.clientHs) (h4 : s'.serverHs = s.serverHs) (hk : s'.kx = s.kx) (hx : s'.shared = s.shared)
    (h5 : s'.events = s.events) (h6 : s'.eng = s.eng) : Near s s' :=
  ⟨h1, h2, h3, h4, hk, hx, by rw [h5], by rw [h6]; exact .refl _⟩

theorem Later.mod {s s' : Ses St} (h : Near s s') (h1 : s'.srtp = s.srtp)
    (h2 : s'.authRequested = s.authRequested) (h3 : s'.extData = s.extData := by rfl) : Later s s' := ⟨h, h1, h2, h3⟩

theorem Later.put {s s' : Ses St} (h : Later s s') (st : St) : Later s { s' with st := st } :=
  Later.rel.trans _ _ _ h (.mod (.mod rfl rfl rfl rfl rfl rfl rfl rfl) rfl rfl rfl)

/-- `m` relates the sessions before and after by `V`, and keeps the state. -/
def SFr (V : Ses St → Ses St → Prop) {α : Type} (m : P St α) : Prop := ∀ s, V s (m s).2 ∧ (m s).2.st = s.st

variable {V : Ses St → Ses St → Prop} {α β : Type}

theorem SFr.pure (h : SRel V) (a : α) : SFr V (M.pure a : P St α) := fun s => ⟨h.refl s, rfl⟩
theorem SFr.get (h : SRel V) : SFr V (M.get : P St (Ses St)) := fun s => ⟨h.refl s, rfl⟩
theorem SFr.fail (h : SRel V) (f : Fault) : SFr V (M.fail f : P St α) := fun s => ⟨h.refl s, rfl⟩
theorem SFr.fatal (h : SRel V) (e : Error) : SFr V (M.fatal e : P St α) := .fail h _
theorem SFr.transient (h : SRel V) : SFr V (M.transient : P St α) := .fail h _
theorem SFr.panic (h : SRel V) : SFr V (M.panic : P St α) := .fail h _

theorem SFr.bind (h : SRel V) {m : P St α} {f : α → P St β} (h1 : SFr V m) (h2 : ∀ a, SFr V (f a)) :
    SFr V (M.bind m f) := by
  intro s
  rw [bind_snd]
  obtain ⟨g1, g2⟩ := h1 s
  split
  · obtain ⟨g3, g4⟩ := h2 _ (m s).2
    exact ⟨h.trans _ _ _ g1 g3, g4.trans g2⟩
  · exact ⟨g1, g2⟩

theorem SFr.modify {f : Ses St → Ses St} (h : ∀ s, V s (f s)) (hs : ∀ s, (f s).st = s.st) :
    SFr V (M.modify f) := fun s => ⟨h s, hs s⟩
theorem SFr.check (h : SRel V) (c : Bool) (e : Error) : SFr V (check c e : P St Unit) := by
  unfold E13.check; split
  · exact .pure h _
  · exact .fatal h _
theorem SFr.orFatal (h : SRel V) (o : Option α) (e : Error) : SFr V (orFatal o e : P St α) := by
  cases o
  · exact .fatal h _
  · exact .pure h _
theorem SFr.orPanic (h : SRel V) (o : Option α) : SFr V (orPanic o : P St α) := by
  cases o
  · exact .panic h
  · exact .pure h _
theorem SFr.orTransient (h : SRel V) (o : Option α) : SFr V (orTransient o : P St α) := by
  cases o
  · exact .transient h
  · exact .pure h _
theorem SFr.onEng (hr : SRel V) {m : E α} (h : GFr m) : SFr V (E13.onEng m : P St α) :=
  fun s => ⟨hr.eng s _ (h s.eng), rfl⟩
theorem SFr.onEng' (hr : SRel V) {f : Eng → Eng} (h : ∀ e, Grow e (f e)) :
    SFr V (E13.onEng' f : P St Unit) := fun s => ⟨hr.eng s _ (h s.eng), rfl⟩
theorem SFr.simple (hr : SRel V) {f : Eng → Eng} (h1 : ∀ e, (f e).suite = e.suite)
    (h2 : ∀ e, (f e).release = e.release) (h3 : ∀ e, (f e).log = e.log)
    (h4 : ∀ e, (f e).transcript = e.transcript) : SFr V (E13.onEng' f : P St Unit) :=
  .onEng' hr fun e => .same (h1 e) (h2 e) (h3 e) (h4 e)
theorem SFr.drawTick (hr : SRel V) : SFr V (drawTick : P St Nat) :=
  fun s => ⟨hr.eng s _ (.same rfl rfl rfl rfl), rfl⟩

theorem SFr.wp {m : P St α} (h : SFr V m) (s : Ses St) :
    wp m s (fun _ s' => V s s' ∧ s'.st = s.st) (fun _ s' => V s s' ∧ s'.st = s.st) :=
  to_wp (R := fun s' => V s s' ∧ s'.st = s.st) (h s)

theorem SFr.lift {m : P St α} (h : SFr Later m) (hr : SRelL V) : SFr V m := fun s =>
  ⟨hr.later _ _ (h s).1, (h s).2⟩

/-- Prove `SFr V` of a function by its syntax; `hf : SRel V`. -/
macro "sfr" hf:ident : tactic => `(tactic|
  repeat' first
    | with_reducible exact SFr.pure $hf _
    | with_reducible exact SFr.get $hf
    | with_reducible exact SFr.fatal $hf _
    | with_reducible exact SFr.transient $hf
    | with_reducible exact SFr.panic $hf
    | with_reducible exact SFr.fail $hf _
    | with_reducible exact SFr.check $hf _ _
    | with_reducible exact SFr.orFatal $hf _ _
    | with_reducible exact SFr.orPanic $hf _
    | with_reducible exact SFr.orTransient $hf _
    | with_reducible exact SFr.drawTick $hf
    | with_reducible exact SFr.onEng $hf (createHandshake_grow _ _ _)
    | with_reducible exact SFr.onEng $hf (nextHandshakeWith_grow _ _ _ _)
    | with_reducible exact SFr.onEng $hf advancePeerSeq_grow
    | with_reducible exact SFr.onEng $hf (createKeyUpdate_grow _ _)
    | with_reducible exact SFr.onEng $hf (updateRecvKeys_grow _)
    | with_reducible exact SFr.onEng $hf (sendAck_grow _)
    | with_reducible exact SFr.onEng $hf (sendAckRetransmittable_grow _)
    | with_reducible exact SFr.onEng $hf (installHandshakeKeys_grow _ _ _)
    | with_reducible exact SFr.onEng $hf (installApplicationKeys_grow _ _ _)
    | with_reducible exact SFr.onEng $hf (enablePeerEncryption_grow _)
    | with_reducible exact SFr.onEng $hf (createCipher_grow _ _ _ _ _)
    | with_reducible exact SFr.onEng' $hf (flightBegin_grow _)
    | with_reducible exact SFr.onEng' $hf flightStop_grow
    | (with_reducible refine SFr.simple $hf ?_ ?_ ?_ ?_) <;> exact fun _ => rfl
    | with_reducible refine SFr.modify ?_ (fun _ => rfl) <;>
        first | exact fun _ => Near.mod rfl rfl rfl rfl rfl rfl rfl rfl
              | exact fun _ => Later.mod (Near.mod rfl rfl rfl rfl rfl rfl rfl rfl) rfl rfl rfl
    | assumption
    | with_reducible refine SFr.bind $hf ?_ (fun _ => ?_)
    | split)

variable {env : PEnv}

theorem nextHandshake_sfr (hf : SRel V) (t) : SFr V (onEng (nextHandshake env.toEnv t) : P St (Option Body)) :=
  .onEng hf (nextHandshakeWith_grow _ _ _ _)

theorem drainLoop_sfr (hf : SRel V) (n : Nat) (l : List Bytes) : SFr V (drainLoop env n l : P St Unit) := by
  induction l with
  | nil => exact .pure hf _
  | cons d rest ih => unfold drainLoop sendApp; simp only [bind_eq]; sfr hf

theorem drainQueued_later : SFr Later (drainQueued env : P St Unit) := by
  intro s
  obtain ⟨h1, h2⟩ := drainLoop_sfr (V := Later) Later.rel.toSRel (env := env) s.eng.appEpoch s.queued { s with queued := [] }
  exact ⟨Later.rel.trans s { s with queued := [] } _ (.mod (.mod rfl rfl rfl rfl rfl rfl rfl rfl) rfl rfl rfl) h1, h2⟩

theorem app_later (a : St) : SFr Later (awaitApplicationData env a) := by
  have hf := (Later.rel (St := St)).toSRel
  have h := drainQueued_later (St := St) (env := env)
  unfold awaitApplicationData autoKeyUpdate respondKeyUpdate takeKeyUpdate
  simp only [bind_eq, pure_eq]
  sfr hf

theorem half_later (a b : St) : SFr Later (halfClosedLocal env a b) := by
  have hf := (Later.rel (St := St)).toSRel
  unfold halfClosedLocal
  simp only [bind_eq, pure_eq]
  sfr hf

theorem computeVerify_sfr (hf : SRel V) (b) : SFr V (computeVerify env b : P St Bytes) := by
  unfold computeVerify; simp only [bind_eq]; sfr hf

theorem installApplication_sfr (hf : SRel V) : SFr V (installApplication env : P St Unit) := by
  unfold installApplication; simp only [bind_eq]; sfr hf

theorem certificateVerifyBody_sfr (hf : SRel V) (b) : SFr V (certificateVerifyBody env b : P St Bytes) := by
  unfold certificateVerifyBody; simp only [bind_eq, pure_eq]; sfr hf

/-- `computeVerify` leaves the session alone. -/
theorem computeVerify_ok (x : Bytes) (s : Ses St) : wp (computeVerify env x) s
    (fun v s' => s' = s ∧ ∃ suite, s.eng.suite = some suite ∧ env.verifyData suite x s.eng.transcript = some v)
    (fun _ s' => s' = s) := by
  unfold computeVerify
  simp only [bind_eq, wp_bind, wp_get]
  refine wp_orPanic_of (fun suite hs => ?_) rfl
  exact wp_orFatal_of (fun v hv => ⟨rfl, suite, hs, hv⟩) rfl

/-- `announceConnected` releases application data and reports Connected; it fails only by a panic, after
the event is queued. -/
theorem announceConnected_ok (rel : Eng → Eng) (app : St) (s : Ses St) : wp (announceConnected env rel app) s
    (fun new s' => new = app ∧ ∃ es, es.count .connected = 1 ∧
      s' = { s with events := s.events ++ es, eng := rel s.eng })
    (fun f s' => f = .panic ∧ s' = { s with events := s.events ++ [.connected] }) := by
  unfold announceConnected
  simp only [bind_eq, pure_eq, wp_bind, wp_modify, wp_get]
  split
  · exact ⟨rfl, [.connected], rfl, rfl⟩
  · next profile _ =>
    rw [wp_bind]
    refine wp_orPanic_of (fun suite _ => ?_) ⟨rfl, rfl⟩
    split
    · split
      · next km _ =>
        refine ⟨rfl, [.connected, .keyingMaterial km profile], ?_, ?_⟩
        · simp
        · dsimp only; rw [List.append_assoc]; rfl
      · exact ⟨rfl, [.connected], rfl, rfl⟩
    · exact ⟨rfl, [.connected], rfl, rfl⟩

end sessions
end Verif.E13

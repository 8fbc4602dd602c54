import Verif.Lemmas.Later12
/-!
# Properties a DTLS 1.2 session establishes on its way through the handshake
-/
namespace Verif.E12
open Verif Wire Window Timer Aead M

/-- What the key exchange has left so far. -/
def keying {St : Type} (s : Ses St) : Option Bytes × Option (Nat × Nat) × Option Bytes × Option Bytes :=
  (s.pms, s.kx, s.kxPub, s.sessionHash)

/-- Nothing is added to the transcript either, and the key exchange is where it was. -/
structure Still {St : Type} (s s' : Ses St) : Prop extends Later s s' where
  same : s'.eng.transcript = s.eng.transcript
  sessionId : s'.sessionId = s.sessionId
  kxSame : keying s' = keying s

theorem Still.refl {St : Type} (s : Ses St) : Still s s := ⟨Later.rel.refl s, rfl, rfl, rfl⟩

theorem Still.trans {St : Type} {a b c : Ses St} (h : Still a b) (g : Still b c) : Still a c :=
  ⟨Later.rel.trans _ _ _ h.toLater g.toLater, g.same.trans h.same, g.sessionId.trans h.sessionId,
    g.kxSame.trans h.kxSame⟩

theorem Still.mod {St : Type} {s s' : Ses St} (h : Later s s') (h1 : s'.eng.transcript = s.eng.transcript)
    (h2 : s'.sessionId = s.sessionId) (h3 : keying s' = keying s := by rfl) : Still s s' := ⟨h, h1, h2, h3⟩

theorem Still.eng {St : Type} (s : Ses St) {e : Eng} (h : Grow s.eng e) (h1 : e.transcript = s.eng.transcript) :
    Still s { s with eng := e } := ⟨Later.rel.eng s e h, h1, rfl, rfl⟩

/-- `Stage st` holds in state `st`, `Done` from the connected state on. -/
structure Saga (R : Role) (env : PEnv) (Stage : R.St → Ses R.St → Prop) (Done : Ses R.St → Prop) : Prop where
  later : ∀ st s s', Still s s' → Stage st s → Stage st s'
  closed : ∀ st s, Stage st s → Stage R.closed s
  app : ∀ s, Stage R.app s → Done s
  done : ∀ s s', Still s s' → Done s → Done s'
  step : ∀ st s, Stage st s → wp (R.step env st) s (fun new s' => s'.st = s.st ∧ Stage new s')
    (fun _ s' => s'.st = s.st ∧ Stage st s')

/-- What holds throughout. -/
structure OnTrack (R : Role) (Stage : R.St → Ses R.St → Prop) (Done : Ses R.St → Prop) (s : Ses R.St) : Prop where
  stage : Stage s.st s
  rel : s.eng.release = true → s.st = R.app ∨ s.st = R.closed
  done : s.eng.release = true → Done s

section
variable {R : Role} {env : PEnv} {Stage : R.St → Ses R.St → Prop} {Done : Ses R.St → Prop}

theorem OnTrack.later (h : Saga R env Stage Done) {s s' : Ses R.St} (ht : OnTrack R Stage Done s)
    (hl : Still s s') (h1 : s'.st = s.st) (h2 : s'.eng.release = s.eng.release) : OnTrack R Stage Done s' := by
  refine ⟨?_, ?_, ?_⟩
  · rw [h1]; exact h.later _ _ _ hl ht.stage
  · rw [h1, h2]; exact ht.rel
  · rw [h2]; exact fun g => h.done _ _ hl (ht.done g)

theorem send_release (env : Env) (c : UInt8) (e : Nat) (sv fo : Bool) (f : Bytes) (s : Eng) :
    (createRecord env c e sv fo f s).2.release = s.release := by
  obtain ⟨_, _, _, _, _, _, _, h⟩ := createRecord_frame env c e sv fo f s
  rw [h]

theorem send_transcript (env : Env) (c : UInt8) (e : Nat) (sv fo : Bool) (f : Bytes) (s : Eng) :
    (createRecord env c e sv fo f s).2.transcript = s.transcript := by
  obtain ⟨_, _, _, _, _, _, _, h⟩ := createRecord_frame env c e sv fo f s
  rw [h]

theorem Still.put {St : Type} {s s' : Ses St} (h : Still s s') (st : St) : Still s { s' with st := st } :=
  h.trans (.mod (.mod (.mod rfl rfl rfl rfl rfl rfl rfl rfl) rfl rfl) rfl rfl)

/-- Leaves the transcript alone. -/
def SameT (a b : Eng) : Prop := b.transcript = a.transcript

theorem inFrame_sameT (env : Env) : InFrame env SameT where
  refl _ := rfl
  trans _ _ _ h g := Eq.trans g h
  recv e p := by
    obtain ⟨rp, cf, cr, es, he, hs⟩ := recordsParse_frame env p e
    unfold SameT
    rw [hs]
  resend e := by
    obtain ⟨_, _, _, _, _, _, _, h⟩ := flightResend_frame env e
    unfold SameT
    rw [h]
  rx _ _ _ := rfl
  peerEnc _ := rfl

theorem handleTimeout_sameT (env : Env) (n : Nat) (e : Eng) : SameT e (handleTimeout env n e).2 := by
  have h : ∀ t k, SameT e { e with timers := t, tick := k } := fun _ _ => rfl
  unfold handleTimeout
  dsimp only
  split
  · exact h _ _
  · exact h _ _
  · exact (inFrame_sameT env).resend _
  · exact h _ _

theorem pollOutput_sameT (n now : Nat) (e : Eng) : SameT e (pollOutput n now e).2 := by
  unfold SameT pollOutput pollRest purge
  dsimp only
  repeat' split
  all_goals rfl

theorem drainLoop_still {St : Type} (env : PEnv) (l : List Bytes) : SFr Still (drainLoop env l : P St Unit) := by
  induction l with
  | nil => exact fun s => ⟨.refl s, rfl⟩
  | cons d rest ih =>
    intro s
    unfold drainLoop
    simp only [bind_eq]
    rw [bind_snd]
    have h1 : Still s (onEng (createRecord env.toEnv ctAppData 1 false false d) s).2 :=
      .eng s (createRecord_grow ..) (send_transcript ..)
    split
    · exact ⟨h1.trans (ih _).1, (ih _).2⟩
    · exact ⟨h1, rfl⟩

theorem app_still {St : Type} {env : PEnv} (a c : St) : SFr Still (awaitApplicationData env a c) := by
  intro s
  unfold awaitApplicationData sendCloseNotify drainQueued
  simp only [bind_eq, pure_eq]
  apply of_wp (R := fun s' => Still s s' ∧ s'.st = s.st)
  rw [wp_bind, wp_get]
  split
  · rw [wp_bind, wp_onEng', wp_bind, wp_onEng]
    have h1 : Still s { s with eng := discardPendingWrites s.eng } :=
      .mod (.mod (.mod rfl rfl rfl rfl rfl rfl rfl rfl) rfl rfl) rfl rfl
    refine wp_mono (to_wp (R := fun e => Still s { s with eng := e }) ?_) ?_ ?_
    · exact h1.trans (.eng { s with eng := discardPendingWrites s.eng } (createRecord_grow ..) (send_transcript ..))
    · exact fun _ e h => ⟨h, rfl⟩
    · exact fun _ e h => ⟨h, rfl⟩
  · rw [wp_bind, wp_bind, wp_get, wp_bind, wp_set]
    have h1 : Still s { s with queued := [] } :=
      .mod (.mod (.mod rfl rfl rfl rfl rfl rfl rfl rfl) rfl rfl) rfl rfl
    refine wp_mono (SFr.wp (drainLoop_still env s.queued) _) ?_ ?_
    · exact fun _ s' h => ⟨h1.trans h.1, h.2⟩
    · exact fun _ s' h => ⟨h1.trans h.1, h.2⟩

theorem Later.put {St : Type} {s s' : Ses St} (h : Later s s') (st : St) : Later s { s' with st := st } :=
  Later.rel.trans _ _ _ h (.mod (.mod rfl rfl rfl rfl rfl rfl rfl rfl) rfl rfl)

theorem packet_release (env : Env) (p : Bytes) (e : Eng) : (parsePacket env p e).2.release = e.release := by
  have h : InFrame env (fun a b => b.release = a.release) := {
    refl := fun _ => rfl
    trans := fun _ _ _ h g => g.trans h
    recv := fun e p => by
      obtain ⟨rp, cf, cr, es, he, hs⟩ := recordsParse_frame env p e
      rw [hs]
    resend := fun e => by
      obtain ⟨_, _, _, _, _, _, _, h⟩ := flightResend_frame env e
      rw [h]
    rx := fun _ _ _ => rfl
    peerEnc := fun _ => rfl }
  exact h.parsePacket p e

theorem Saga.stable {post : R.St → Bool} (hs : ShowRule R env post) (hr : RoleOk R env)
    (h : Saga R env Stage Done) : Stable R env (fun _ => True) (OnTrack R Stage Done) where
  packet s p ht := ht.later h (.eng _ ((inFrame_grow env.toEnv).parsePacket p s.eng)
    ((inFrame_sameT env.toEnv).parsePacket p s.eng)) rfl
    (packet_release ..)
  note s n ht := by
    unfold noteTime
    split
    · exact ht.later h (.mod (.mod (.mod rfl rfl rfl rfl rfl rfl rfl rfl) rfl rfl) rfl rfl) rfl rfl
    · rename_i hn
      refine ht.later h ⟨⟨⟨fun r hr => ?_, rfl, rfl, rfl, rfl, rfl, ⟨[], rfl⟩,
        ⟨[], (List.append_nil _).symm⟩⟩, rfl, rfl⟩, rfl, rfl, rfl⟩ rfl rfl
      rw [hn] at hr; cases hr
  timeout s n ht := by
    refine ht.later h (.eng _ (handleTimeout_grow env.toEnv n s.eng)
      (handleTimeout_sameT ..)) rfl ?_
    obtain ⟨_, _, _, _, _, _, _, _, _, _, _, _, _, g⟩ := handleTimeout_quiet env.toEnv n s.eng
    show (handleTimeout env.toEnv n s.eng).2.release = s.eng.release
    rw [g]
  step s ht := by
    have h1 := h.step s.st s ht.stage
    have h2 := hs.step s
    by_cases ha : s.st = R.app
    · have h3 : wp (R.step env s.st) s (fun _ s' => Still s s' ∧ s'.st = s.st)
          (fun _ s' => Still s s' ∧ s'.st = s.st) := by
        rw [ha, hr.app]
        have := SFr.wp (app_still (env := env) R.app R.closed) s
        rwa [ha] at this
      have hd : Done s := h.app s (ha ▸ ht.stage)
      refine wp_mono (wp_and h1 (wp_and h2 h3)) ?_ ?_
      · rintro new s' ⟨⟨g1, g2⟩, g3, g4, g5⟩
        refine ⟨g1, h.later _ s' _ (Still.put (.refl _) _) g2, ?_, fun _ => h.done _ _ (g4.put _) hd⟩
        intro _
        show new = _ ∨ new = _
        generalize shown s' = x at g3
        cases g3 with
        | same _ _ x _ => exact x ha
        | cert _ _ x _ => exact absurd ha x
        | ccs _ x _ => exact absurd ha x
        | connect _ _ x => exact absurd ha x
      · rintro _ s' ⟨⟨g1, g2⟩, _, g4, _⟩
        exact ⟨g1 ▸ g2, fun _ => .inl (g1.trans ha), fun _ => h.done _ _ g4 hd⟩
    · by_cases hc : s.st = R.closed
      · have h3 : wp (R.step env s.st) s (fun new s' => new = R.closed ∧ s' = s) (fun _ _ => False) := by
          rw [hc, hr.closed]
          exact ⟨rfl, rfl⟩
        refine wp_mono h3 ?_ (fun _ _ h => h.elim)
        rintro new s' ⟨rfl, rfl⟩
        exact ⟨rfl, h.later _ _ _ ((Still.refl _).put _) (h.closed _ _ ht.stage), fun _ => .inr rfl,
          fun g => h.done _ _ ((Still.refl _).put _) (ht.done g)⟩
      · have hrel : s.eng.release = false := by
          cases hb : s.eng.release with
          | false => rfl
          | true => rcases ht.rel hb with g | g <;> contradiction
        have hrs : (shown s).release = false := hrel
        refine wp_mono (wp_and h1 h2) ?_ ?_
        · rintro new s' ⟨⟨g1, g2⟩, g3⟩
          have g2' : Stage new { s' with st := new } := h.later _ s' _ (Still.put (.refl _) _) g2
          have key : s'.eng.release = true → new = R.app := by
            intro g
            have g : (shown s').release = true := g
            generalize shown s' = x at g3 g
            cases g3 with
            | same => rw [hrs] at g; cases g
            | cert => rw [show _ = false from hrs] at g; cases g
            | ccs => rw [show _ = false from hrs] at g; cases g
            | connect x => exact x
          refine ⟨g1, g2', fun g => .inl (key g), fun g => ?_⟩
          have := key g
          subst this
          exact h.app _ g2'
        · rintro _ s' ⟨⟨g1, g2⟩, _, g3⟩
          have key : s'.eng.release = false := by
            cases hb : s'.eng.release with
            | false => rfl
            | true =>
              have g : (shown s').release = true := hb
              generalize shown s' = x at g3 g
              cases g3 with
              | same => rw [hrs] at g; cases g
              | cert => rw [show _ = false from hrs] at g; cases g
              | ccs => rw [show _ = false from hrs] at g; cases g
              | connect x _ y => exact absurd x y
          exact ⟨g1 ▸ g2, fun g => (by rw [key] at g; cases g), fun g => (by rw [key] at g; cases g)⟩
  send s d _ ht := by
    apply of_wp (m := sendM R env d)
    unfold sendM
    simp only [bind_eq, wp_bind, wp_get]
    split
    · exact ht
    · split
      · exact ht.later h (.mod (.mod (.mod rfl rfl rfl rfl rfl rfl rfl rfl) rfl rfl) rfl rfl) rfl rfl
      · rw [wp_state]
        exact ht.later h (.eng _ (createRecord_grow ..) (send_transcript ..)) rfl (send_release ..)
  close s ht := by
    apply of_wp (m := closeM R env)
    unfold closeM sendCloseNotify
    simp only [bind_eq, pure_eq, wp_bind, wp_get]
    split
    · exact ht
    · split
      · simp only [wp_bind, wp_onEng', wp_modify]
        have hl : Still s { s with eng := abort s.eng, st := R.closed } :=
          .mod (.mod (.mod rfl rfl rfl rfl rfl rfl rfl rfl) rfl rfl) rfl rfl
        exact ⟨h.closed _ _ (h.later _ _ _ hl ht.stage), fun _ => .inr rfl, fun g => h.done _ _ hl (ht.done g)⟩
      · simp only [wp_bind, wp_modify, wp_onEng]
        have hg := createRecord_grow env.toEnv ctAlert 1 false false [1, 0] s.eng
        have hb := send_release env.toEnv ctAlert 1 false false [1, 0] s.eng
        have hc := send_transcript env.toEnv ctAlert 1 false false [1, 0] s.eng
        have hw := wp_state (m := createRecord env.toEnv ctAlert 1 false false [1, 0]) (s := s.eng)
          (R := fun e => Grow s.eng e ∧ e.release = s.eng.release ∧ e.transcript = s.eng.transcript) |>.mpr ⟨hg, hb, hc⟩
        refine wp_mono hw ?_ ?_
        · rintro _ e ⟨g1, g2, g3⟩
          have hl : Still s { s with eng := e, st := R.closed } := (Still.eng s g1 g3).put _
          exact ⟨h.closed _ _ (h.later _ _ _ hl ht.stage), fun _ => .inr rfl, fun g => h.done _ _ hl (ht.done (g2 ▸ g))⟩
        · rintro _ e ⟨g1, g2, g3⟩
          exact ht.later h (.eng _ g1 g3) rfl g2
  poll s n ht := by
    unfold pollM
    split
    · exact ht.later h (.mod (.mod (.mod rfl rfl rfl rfl rfl rfl rfl rfl) rfl rfl) rfl rfl) rfl rfl
    · refine ht.later h (.eng _ (pollOutput_grow ..) (pollOutput_sameT ..)) rfl ?_
      show (pollOutput n s.lastNow s.eng).2.release = s.eng.release
      unfold pollOutput pollRest purge
      dsimp only
      repeat' split
      all_goals first | rfl | assumption

end

/-! ## The bodies of messages -/

theorem parseBody_clientHello {env : Env} {su : Option Nat} {body : Bytes} {b : Body}
    (h : parseBody env mtClientHello su body = some ([], b)) :
    ∃ x, b = .clientHello x ∧ env.parseClientHello body = some ([], x) := by
  simp (decide := true) only [parseBody, reduceIte, Option.map_eq_some_iff] at h
  obtain ⟨⟨r, x⟩, h1, h2⟩ := h
  cases h2
  exact ⟨x, rfl, h1⟩

theorem parseBody_serverHello {env : Env} {su : Option Nat} {body : Bytes} {b : Body}
    (h : parseBody env mtServerHello su body = some ([], b)) :
    ∃ x, b = .serverHello x ∧ env.parseServerHello body = some ([], x) := by
  simp (decide := true) only [parseBody, reduceIte, Option.map_eq_some_iff] at h
  obtain ⟨⟨r, x⟩, h1, h2⟩ := h
  cases h2
  exact ⟨x, rfl, h1⟩

theorem parseBody_certificate {env : Env} {su : Option Nat} {body : Bytes} {b : Body}
    (h : parseBody env mtCertificate su body = some ([], b)) :
    ∃ x, b = .certificate x ∧ env.parseCertificate body = some ([], x) := by
  simp (decide := true) only [parseBody, reduceIte, Option.map_eq_some_iff] at h
  obtain ⟨⟨r, x⟩, h1, h2⟩ := h
  cases h2
  exact ⟨x, rfl, h1⟩

theorem parseBody_serverKx {env : Env} {su : Option Nat} {body : Bytes} {b : Body}
    (h : parseBody env mtServerKeyExchange su body = some ([], b)) :
    ∃ cs x, su = some cs ∧ b = .serverKeyExchange x ∧ env.parseServerKx cs body = some ([], x) := by
  simp (decide := true) only [parseBody, reduceIte, Option.bind_eq_some_iff, Option.map_eq_some_iff] at h
  obtain ⟨cs, hcs, ⟨r, x⟩, h1, h2⟩ := h
  cases h2
  exact ⟨cs, x, hcs, rfl, h1⟩

theorem parseBody_certificateVerify {env : Env} {su : Option Nat} {body : Bytes} {b : Body}
    (h : parseBody env mtCertificateVerify su body = some ([], b)) :
    ∃ x, b = .certificateVerify x.1 x.2 ∧ env.parseCertificateVerify body = some ([], x) := by
  simp (decide := true) only [parseBody, reduceIte, Option.map_eq_some_iff] at h
  obtain ⟨⟨r, x⟩, h1, h2⟩ := h
  cases h2
  exact ⟨x, rfl, h1⟩

theorem parseBody_clientKx {env : Env} {su : Option Nat} {body : Bytes} {b : Body}
    (h : parseBody env mtClientKeyExchange su body = some ([], b)) :
    ∃ cs x, su = some cs ∧ b = .clientKeyExchange x ∧ env.parseClientKx cs body = some ([], x) := by
  simp (decide := true) only [parseBody, reduceIte, Option.bind_eq_some_iff, Option.map_eq_some_iff] at h
  obtain ⟨cs, hcs, ⟨r, x⟩, h1, h2⟩ := h
  cases h2
  exact ⟨cs, x, hcs, rfl, h1⟩

theorem parseBody_finished {env : Env} {su : Option Nat} {body : Bytes} {b : Body}
    (h : parseBody env mtFinished su body = some ([], b)) :
    ∃ cs x, su = some cs ∧ b = .finished x ∧ env.parseFinished cs body = some ([], x) := by
  simp (decide := true) only [parseBody, reduceIte, Option.bind_eq_some_iff, Option.map_eq_some_iff] at h
  obtain ⟨cs, hcs, ⟨r, x⟩, h1, h2⟩ := h
  cases h2
  exact ⟨cs, x, hcs, rfl, h1⟩

theorem setCipherSuite_wp (env : Env) (cs : Nat) (e : Eng) : wp (setCipherSuite env cs) e
    (fun _ e' => ∃ a b, e' = { e with explicitLen := a, minProt := b, suite := some cs }) (fun _ e' => e' = e) := by
  apply wp_of
  · intro _ e' he
    unfold setCipherSuite at he
    split at he
    · cases he
    · cases he; exact ⟨_, _, rfl⟩
  · intro _ e' he
    unfold setCipherSuite at he
    split at he
    · cases he; rfl
    · cases he

theorem Rets.wp {St α : Type} {m : P St α} {S : α → Prop} (h : Rets S m) (s : Ses St) :
    wp m s (fun a _ => S a) (fun _ _ => True) :=
  wp_of (fun _ _ he => h _ _ _ he) (fun _ _ _ => trivial)

theorem generateVerifyData_ok {env : Env} {b : Bool} {e e' : Eng} {v : Bytes}
    (h : generateVerifyData env b e = (.ok v, e')) :
    ∃ m cs, e.master = some m ∧ e.suite = some cs ∧ env.verifyData m b e.transcript = some v ∧ e' = e := by
  unfold generateVerifyData at h
  split at h; · cases h
  split at h; · cases h
  split at h; · cases h
  split at h; · cases h
  cases h
  exact ⟨_, _, by assumption, by assumption, by assumption, rfl⟩

theorem createHandshake_ok {env : Env} {t : UInt8} {b : Bytes} {s s' : Eng}
    (h : createHandshake env t b s = (.ok (), s')) :
    ∃ seq post, s'.transcript = s.transcript ++ transcriptOf t b.length seq b ++ post := by
  refine ⟨s.nextSeq, ?_⟩
  unfold createHandshake at h
  dsimp only at h
  split at h
  · cases h
  split at h
  · cases h
  · have h1 := (fragmentLoop_frame env t s.nextSeq b (s.overhead (msgEpoch t)) (b.length + 1) 0
      { s with transcript := s.transcript ++ transcriptOf t b.length s.nextSeq b, nextSeq := s.nextSeq + 1 }).grow
    rw [h] at h1
    exact h1.transcript

/-! ## Client and server -/

namespace C12
variable {env : PEnv}

theorem step_near (st : CSt) (h1 : st ≠ .awaitServerHello) (h2 : st ≠ .awaitCertificate)
    (h3 : st ≠ .awaitHelloVerifyRequest) :
    SFr Near (C12.step env st) := by
  have hf := Near.rel (St := CSt)
  have g4 := fun a b c d => derive_near (St := CSt) (env := env) a b c d
  have lift : ∀ {α : Type} {m : P CSt α}, SFr Later m → SFr Near m := fun h s => ⟨(h s).1.toNear, (h s).2⟩
  have g2 := fun a f g => lift (announce_later (St := CSt) (env := env) a f g)
  cases st
  case awaitServerHello => exact absurd rfl h1
  case awaitCertificate => exact absurd rfl h2
  case awaitHelloVerifyRequest => exact absurd rfl h3
  case awaitApplicationData => exact lift (app_later _ _)
  case awaitChangeCipherSpec => exact lift (ccs_later _ _)
  case closed => exact .pure hf _
  all_goals
    unfold step
    first
      | (unfold sendClientHello; simp only [bind_eq, pure_eq]; sfr hf; done)
      | (unfold awaitServerKeyExchange awaitServerKeyExchangePsk awaitServerKeyExchangeEcdhe processEcdh
         simp only [bind_eq, pure_eq]; sfr hf; done)
      | (unfold awaitCertificateRequest; simp only [bind_eq, pure_eq]; sfr hf; done)
      | (unfold awaitServerHelloDone; simp only [bind_eq, pure_eq]; sfr hf; done)
      | (unfold sendCertificate; simp only [bind_eq, pure_eq]; sfr hf; done)
      | (unfold sendClientKeyExchange clientKeyExchangeBody; simp only [bind_eq, pure_eq]; sfr hf; done)
      | (unfold sendCertificateVerify certificateVerifyBody; simp only [bind_eq, pure_eq]; sfr hf; done)
      | (unfold sendChangeCipherSpec deriveKeys; simp only [bind_eq, pure_eq]; sfr hf; exact g4 _ _ _ _; done)
      | (unfold sendFinished; simp only [bind_eq, pure_eq]; sfr hf; done)
      | (unfold awaitNewSessionTicket; simp only [bind_eq, pure_eq]; sfr hf; done)
      | (unfold awaitFinished; simp only [bind_eq, pure_eq]; sfr hf; exact g2 _ _ _; done)

end C12

namespace S12
variable {env : PEnv}

theorem step_later (st : SSt) (h1 : st ≠ .awaitClientHello) (h2 : st ≠ .awaitCertificate)
    (h3 : st ≠ .awaitClientKeyExchange) : SFr Later (S12.step env st) := by
  have hf := Later.rel (St := SSt)
  have g2 := fun a f g => announce_later (St := SSt) (env := env) a f g
  cases st
  case awaitClientHello => exact absurd rfl h1
  case awaitCertificate => exact absurd rfl h2
  case awaitClientKeyExchange => exact absurd rfl h3
  case awaitApplicationData => exact app_later _ _
  case awaitChangeCipherSpec => exact ccs_later _ _
  case closed => exact .pure hf _
  all_goals
    unfold step
    first
      | (unfold sendServerHello; simp only [bind_eq, pure_eq]; sfr hf; done)
      | (unfold sendCertificate; simp only [bind_eq, pure_eq]; sfr hf; done)
      | (unfold sendServerKeyExchange sendServerKeyExchangePsk sendServerKeyExchangeEcdhe serverKeyExchangeBody
         simp only [bind_eq, pure_eq]; sfr hf; done)
      | (unfold sendCertificateRequest; simp only [bind_eq, pure_eq]; sfr hf; done)
      | (unfold sendServerHelloDone; simp only [bind_eq, pure_eq]; sfr hf; done)
      | (unfold awaitCertificateVerify; simp only [bind_eq, pure_eq]; sfr hf; done)
      | (unfold awaitFinished; simp only [bind_eq, pure_eq]; sfr hf; done)
      | (unfold sendChangeCipherSpec; simp only [bind_eq, pure_eq]; sfr hf; done)
      | (unfold sendFinished; simp only [bind_eq]; sfr hf; exact g2 _ _ _; done)

theorem serverKeyExchangeBody_later (cr sr : Bytes) (g a : Nat) : SFr Later (serverKeyExchangeBody env cr sr g a) := by
  have hf := Later.rel (St := SSt)
  unfold serverKeyExchangeBody; simp only [bind_eq, pure_eq]; sfr hf

theorem clientKxEcdh_later (pub : Bytes) : SFr Later (clientKxEcdh env pub) := by
  have hf := Later.rel (St := SSt)
  unfold clientKxEcdh; simp only [bind_eq]; sfr hf

end S12
end Verif.E12

import Verif.Lemmas.Frame12
import Verif.Lemmas.Marks12
import Verif.Lemmas.Rx12
/-!
# What a DTLS 1.2 session remembers of its handshake

`Near` and `Later` relate sessions before and after: what the handshake established is still there.
-/
namespace Verif.E12
open Verif Wire Window Timer Aead M

/-- The log and the transcript only grow; suite and master secret stay. -/
structure Grow (e e' : Eng) : Prop where
  suite : e'.suite = e.suite
  master : e'.master = e.master
  log : ∃ es, e'.log = es ++ e.log
  transcript : ∃ t, e'.transcript = e.transcript ++ t

theorem Grow.refl (e : Eng) : Grow e e := ⟨rfl, rfl, ⟨[], rfl⟩, ⟨[], (List.append_nil _).symm⟩⟩

theorem Grow.trans {a b c : Eng} (h : Grow a b) (g : Grow b c) : Grow a c := by
  obtain ⟨h1, h2, ⟨x, h3⟩, ⟨y, h4⟩⟩ := h
  obtain ⟨g1, g2, ⟨x', g3⟩, ⟨y', g4⟩⟩ := g
  exact ⟨g1.trans h1, g2.trans h2, ⟨x' ++ x, by rw [g3, h3, List.append_assoc]⟩,
    ⟨y ++ y', by rw [g4, h4, List.append_assoc]⟩⟩

/-- Nothing of it is touched. -/
theorem Grow.of {e e' : Eng} (h1 : e'.suite = e.suite) (h2 : e'.master = e.master)
    (h3 : e'.log = e.log) (h4 : e'.transcript = e.transcript) : Grow e e' :=
  ⟨h1, h2, ⟨[], h3⟩, ⟨[], h4.trans (List.append_nil _).symm⟩⟩

theorem SendFrame.grow {s s' : Eng} (h : SendFrame s s') : Grow s s' := by
  obtain ⟨tx, a, b, sv, t, es, he, rfl⟩ := h
  exact ⟨rfl, rfl, ⟨es, rfl⟩, ⟨[], (List.append_nil _).symm⟩⟩

theorem createRecord_grow (env : Env) (c : UInt8) (e : Nat) (sv fo : Bool) (f : Bytes) (s : Eng) :
    Grow s (createRecord env c e sv fo f s).2 := (createRecord_frame ..).grow

theorem flightResend_grow (env : Env) (s : Eng) : Grow s (flightResend env s).2 := (flightResend_frame ..).grow

theorem createHandshake_grow (env : Env) (t : UInt8) (b : Bytes) (s : Eng) :
    Grow s (createHandshake env t b s).2 := by
  have h : ∀ x ns, Grow s { s with transcript := s.transcript ++ x, nextSeq := ns } := fun x ns =>
    ⟨rfl, rfl, ⟨[], rfl⟩, ⟨x, rfl⟩⟩
  unfold createHandshake
  dsimp only
  split
  · exact h _ s.nextSeq
  split
  · exact h _ _
  · exact (h _ _).trans (fragmentLoop_frame ..).grow

theorem recordsParse_grow (env : Env) (e : Eng) (p : Bytes) : Grow e (recordsParse env p e).2 := by
  obtain ⟨rp, cf, cr, es, he, hs⟩ := recordsParse_frame env p e
  rw [hs]
  exact ⟨rfl, rfl, ⟨es, rfl⟩, ⟨[], (List.append_nil _).symm⟩⟩

theorem inFrame_grow (env : Env) : InFrame env Grow where
  refl := .refl
  trans _ _ _ h g := h.trans g
  recv := recordsParse_grow env
  resend := flightResend_grow env
  rx _ _ _ := .of rfl rfl rfl rfl
  peerEnc _ := .of rfl rfl rfl rfl

theorem nextHandshake_grow (env : Env) (t : UInt8) (e : Eng) : Grow e (nextHandshake env t e).2 := by
  have h : ∀ rx x, Grow e { e with rx := rx, transcript := e.transcript ++ x } := fun _ x =>
    ⟨rfl, rfl, ⟨[], rfl⟩, ⟨x, rfl⟩⟩
  have h' : ∀ rx x ps a b c, Grow e { e with rx := rx, transcript := e.transcript ++ x, peerSeq := ps, log := .consumed a b c :: e.log } :=
    fun _ x _ a b c => ⟨rfl, rfl, ⟨[.consumed a b c], rfl⟩, ⟨x, rfl⟩⟩
  unfold nextHandshake
  split
  · exact .refl e
  split
  · exact .refl e
  unfold defragment
  dsimp only
  repeat' split
  all_goals first
    | exact .refl e
    | exact .of rfl rfl rfl rfl
    | exact h _ _
    | exact h' _ _ _ _ _ _

theorem nextRecord_grow (c : UInt8) (e : Eng) : Grow e (nextRecord c e).2 := by
  unfold nextRecord
  repeat' split
  all_goals exact .of rfl rfl rfl rfl

theorem handleTimeout_grow (env : Env) (n : Nat) (e : Eng) : Grow e (handleTimeout env n e).2 := by
  have h : ∀ t k, Grow e { e with timers := t, tick := k } := fun _ _ => .of rfl rfl rfl rfl
  unfold handleTimeout
  dsimp only
  split
  · exact h _ _
  · exact h _ _
  · exact (h _ _).trans (flightResend_grow _ _)
  · exact h _ _

theorem pollOutput_grow (n now : Nat) (e : Eng) : Grow e (pollOutput n now e).2 := by
  have h1 : Grow e (purge e) := .of rfl rfl rfl rfl
  have h2 : ∀ e : Eng, Grow e (pollRest n now e).2 := by
    intro e
    unfold pollRest
    repeat' split
    all_goals first
      | exact .of rfl rfl rfl rfl
      | exact ⟨rfl, rfl, ⟨[_], rfl⟩, ⟨[], (List.append_nil _).symm⟩⟩
  unfold pollOutput
  dsimp only
  split
  · split
    · split
      · exact h1
      · exact ⟨rfl, rfl, ⟨[_], rfl⟩, ⟨[], (List.append_nil _).symm⟩⟩
    · exact h1.trans (h2 _)
  · exact h1.trans (h2 _)

/-- A message handed to a state was consumed: it is in the log and the transcript, and its body parsed. -/
theorem nextHandshake_ok (env : Env) (t : UInt8) (e : Eng) (ht : isUnknownType t = false) :
    wp (nextHandshake env t) e
      (fun m e' => Grow e e' ∧ (m = none ∧ e' = e ∨ ∃ b seq body, m = some b ∧
        e'.log = .consumed seq t body :: e.log ∧ parseBody env t e.suite body = some ([], b) ∧
        e'.transcript = e.transcript ++ transcriptOf t body.length seq body))
      (fun _ e' => Grow e e') := by
  have hg := nextHandshake_grow env t e
  apply wp_of
  · intro m e' he
    rw [he] at hg
    refine ⟨hg, ?_⟩
    unfold nextHandshake at he
    split at he
    · cases he; exact .inl ⟨rfl, rfl⟩
    rename_i hc
    simp only [Bool.not_eq_true', Bool.not_eq_false] at hc
    obtain ⟨first, rest, hv, hq, hty⟩ := hasComplete_first hc
    rw [hv] at he
    dsimp only at he
    unfold defragment at he
    dsimp only at he
    split at he; · cases he
    split at he; · cases he
    rename_i hl
    rw [hty] at he
    split at he; · cases he
    rename_i left b hp
    split at he; · cases he
    rename_i hleft
    split at he; · cases he
    cases he
    simp only [ht, Bool.not_false, Bool.and_true, Bool.not_eq_true, Bool.not_eq_false', List.isEmpty_iff] at hleft
    subst hleft
    refine .inr ⟨b, _, _, rfl, rfl, hp, ?_⟩
    have hl : ((fragmentRun first rest).flatMap (·.body)).length = first.header.length := Classical.not_not.1 hl
    show _ = _ ++ transcriptOf t _ _ _
    rw [hl]
  · intro f e' he
    rw [he] at hg
    exact hg

/-! ## Sessions -/

section
variable {St : Type}

/-- What was negotiated, and the peer's certificates, are kept; the transcript grows. -/
structure Near (s s' : Ses St) : Prop where
  random : ∀ r, s.random = some r → s'.random = some r
  peerRandom : s'.peerRandom = s.peerRandom
  peerCerts : s'.peerCerts = s.peerCerts
  srtp : s'.srtp = s.srtp
  offered : (s'.clientGroups, s'.clientSigs) = (s.clientGroups, s.clientSigs)
  suite : s'.eng.suite = s.eng.suite
  log : ∃ es, s'.eng.log = es ++ s.eng.log
  transcript : ∃ t, s'.eng.transcript = s.eng.transcript ++ t

theorem Near.clientGroups {s s' : Ses St} (h : Near s s') : s'.clientGroups = s.clientGroups :=
  congrArg (·.1) h.offered

theorem Near.clientSigs {s s' : Ses St} (h : Near s s') : s'.clientSigs = s.clientSigs :=
  congrArg (·.2) h.offered

/-- Also the master secret. -/
structure Later (s s' : Ses St) : Prop extends Near s s' where
  pskValid : s'.pskValid = s.pskValid
  master : s'.eng.master = s.eng.master

/-- A relation on sessions that growing engines satisfy. -/
structure SRel (V : Ses St → Ses St → Prop) : Prop where
  refl : ∀ s, V s s
  trans : ∀ a b c, V a b → V b c → V a c
  eng : ∀ s e, Grow s.eng e → V s { s with eng := e }

theorem Near.rel : SRel (Near (St := St)) where
  refl s := ⟨fun _ h => h, rfl, rfl, rfl, rfl, rfl, ⟨[], rfl⟩, ⟨[], (List.append_nil _).symm⟩⟩
  trans a b c h g := by
    obtain ⟨h1, h2, h3, h4, h5, h6, ⟨x, h7⟩, ⟨y, h8⟩⟩ := h
    obtain ⟨g1, g2, g3, g4, g5, g6, ⟨x', g7⟩, ⟨y', g8⟩⟩ := g
    exact ⟨fun r hr => g1 r (h1 r hr), g2.trans h2, g3.trans h3, g4.trans h4, g5.trans h5, g6.trans h6,
      ⟨x' ++ x, by rw [g7, h7, List.append_assoc]⟩, ⟨y ++ y', by rw [g8, h8, List.append_assoc]⟩⟩
  eng s e h := ⟨fun _ h => h, rfl, rfl, rfl, rfl, h.suite, h.log, h.transcript⟩

theorem Later.rel : SRel (Later (St := St)) where
  refl s := ⟨Near.rel.refl s, rfl, rfl⟩
  trans _ _ _ h g := ⟨Near.rel.trans _ _ _ h.toNear g.toNear, g.pskValid.trans h.pskValid, g.master.trans h.master⟩
  eng s e h := ⟨Near.rel.eng s e h, rfl, h.master⟩

theorem Near.mod {s s' : Ses St} (h1 : s'.random = s.random) (h2 : s'.peerRandom = s.peerRandom)
    (h3 : s'.peerCerts = s.peerCerts) (h4 : s'.srtp = s.srtp) 
    (h5 : (s'.clientGroups, s'.clientSigs) = (s.clientGroups, s.clientSigs))
    (h6 : s'.eng.suite = s.eng.suite) (h7 : s'.eng.log = s.eng.log)
    (h8 : s'.eng.transcript = s.eng.transcript) : Near s s' :=
  ⟨fun _ h => h1.trans h, h2, h3, h4, h5, h6, ⟨[], h7⟩, ⟨[], h8.trans (List.append_nil _).symm⟩⟩

theorem Later.mod {s s' : Ses St} (h : Near s s') (h1 : s'.pskValid = s.pskValid)
    (h2 : s'.eng.master = s.eng.master) : Later s s' := ⟨h, h1, h2⟩

/-- `m` relates the sessions before and after by `V`, and keeps the state. -/
def SFr (V : Ses St → Ses St → Prop) {α : Type} (m : P St α) : Prop := ∀ s, V s (m s).2 ∧ (m s).2.st = s.st

variable {V : Ses St → Ses St → Prop} {α β : Type}

theorem SFr.pure (h : SRel V) (a : α) : SFr V (M.pure a : P St α) := fun s => ⟨h.refl s, rfl⟩
theorem SFr.get (h : SRel V) : SFr V (M.get : P St (Ses St)) := fun s => ⟨h.refl s, rfl⟩
theorem SFr.fail (h : SRel V) (f : Fault) : SFr V (M.fail f : P St α) := fun s => ⟨h.refl s, rfl⟩
theorem SFr.fatal (h : SRel V) (e : Error) : SFr V (M.fatal e : P St α) := .fail h _
theorem SFr.transient (h : SRel V) : SFr V (M.transient : P St α) := .fail h _
theorem SFr.panic (h : SRel V) : SFr V (M.panic : P St α) := .fail h _

theorem SFr.bind (h : SRel V) {m : P St α} {f : α → P St β} (h1 : SFr V m) (h2 : ∀ a, SFr V (f a)) :
    SFr V (M.bind m f) := by
  intro s
  rw [bind_snd]
  obtain ⟨g1, g2⟩ := h1 s
  split
  · obtain ⟨g3, g4⟩ := h2 _ (m s).2
    exact ⟨h.trans _ _ _ g1 g3, g4.trans g2⟩
  · exact ⟨g1, g2⟩

theorem SFr.modify {f : Ses St → Ses St} (h : ∀ s, V s (f s)) (hs : ∀ s, (f s).st = s.st) :
    SFr V (M.modify f) := fun s => ⟨h s, hs s⟩
theorem SFr.check (h : SRel V) (c : Bool) (e : Error) : SFr V (check c e : P St Unit) := by
  unfold E12.check; split
  · exact .pure h _
  · exact .fatal h _
theorem SFr.orFatal (h : SRel V) (o : Option α) (e : Error) : SFr V (orFatal o e : P St α) := by
  cases o
  · exact .fatal h _
  · exact .pure h _
theorem SFr.orPanic (h : SRel V) (o : Option α) : SFr V (orPanic o : P St α) := by
  cases o
  · exact .panic h
  · exact .pure h _
theorem SFr.orTransient (h : SRel V) (o : Option α) : SFr V (orTransient o : P St α) := by
  cases o
  · exact .transient h
  · exact .pure h _
theorem SFr.onEng (hr : SRel V) {m : E α} (h : ∀ e, Grow e (m e).2) : SFr V (E12.onEng m : P St α) :=
  fun s => ⟨hr.eng s _ (h s.eng), rfl⟩
theorem SFr.onEng' (hr : SRel V) {f : Eng → Eng} (h : ∀ e, Grow e (f e)) :
    SFr V (E12.onEng' f : P St Unit) := fun s => ⟨hr.eng s _ (h s.eng), rfl⟩
theorem SFr.simple (hr : SRel V) {f : Eng → Eng} (h1 : ∀ e, (f e).suite = e.suite)
    (h2 : ∀ e, (f e).master = e.master) (h3 : ∀ e, (f e).log = e.log)
    (h4 : ∀ e, (f e).transcript = e.transcript) : SFr V (E12.onEng' f : P St Unit) :=
  .onEng' hr fun e => .of (h1 e) (h2 e) (h3 e) (h4 e)
theorem SFr.verifyData (hr : SRel V) (env : Env) (b) :
    SFr V (E12.onEng (generateVerifyData env b) : P St Bytes) :=
  .onEng hr fun e => by rw [generateVerifyData_snd]; exact .refl e
theorem SFr.drawTick (hr : SRel V) : SFr V (drawTick : P St Nat) :=
  fun s => ⟨hr.eng s _ (.of rfl rfl rfl rfl), rfl⟩

theorem SFr.wp {m : P St α} (h : SFr V m) (s : Ses St) :
    wp m s (fun _ s' => V s s' ∧ s'.st = s.st) (fun _ s' => V s s' ∧ s'.st = s.st) :=
  to_wp (R := fun s' => V s s' ∧ s'.st = s.st) (h s)

/-- Prove `SFr V` of a function by its syntax; `hf : SRel V`. -/
macro "sfr" hf:ident : tactic => `(tactic|
  repeat' first
    | with_reducible exact SFr.pure $hf _
    | with_reducible exact SFr.get $hf
    | with_reducible exact SFr.fatal $hf _
    | with_reducible exact SFr.transient $hf
    | with_reducible exact SFr.panic $hf
    | with_reducible exact SFr.fail $hf _
    | with_reducible exact SFr.check $hf _ _
    | with_reducible exact SFr.orFatal $hf _ _
    | with_reducible exact SFr.orPanic $hf _
    | with_reducible exact SFr.orTransient $hf _
    | with_reducible exact SFr.verifyData $hf _ _
    | with_reducible exact SFr.drawTick $hf
    | with_reducible exact SFr.onEng $hf fun _ => createHandshake_grow _ _ _ _
    | with_reducible exact SFr.onEng $hf fun _ => createRecord_grow _ _ _ _ _ _ _
    | with_reducible exact SFr.onEng $hf fun _ => nextHandshake_grow _ _ _
    | with_reducible exact SFr.onEng $hf fun _ => nextRecord_grow _ _
    | with_reducible exact SFr.onEng $hf fun _ => InFrame.enablePeer (inFrame_grow _) _
    | (with_reducible refine SFr.simple $hf ?_ ?_ ?_ ?_) <;> exact fun _ => rfl
    | with_reducible refine SFr.modify ?_ (fun _ => rfl) <;>
        first | exact fun _ => Near.mod rfl rfl rfl rfl rfl rfl rfl rfl
              | exact fun _ => Later.mod (Near.mod rfl rfl rfl rfl rfl rfl rfl rfl) rfl rfl
    | assumption
    | with_reducible refine SFr.bind $hf ?_ (fun _ => ?_)
    | split)

theorem drainLoop_sfr (hf : SRel V) (env : PEnv) (l : List Bytes) : SFr V (drainLoop env l : P St Unit) := by
  induction l with
  | nil => exact .pure hf _
  | cons d rest ih => unfold drainLoop; simp only [bind_eq]; sfr hf

variable {env : PEnv}

theorem drainQueued_later : SFr Later (drainQueued env : P St Unit) := by
  intro s
  obtain ⟨h1, h2⟩ := drainLoop_sfr (V := Later) Later.rel env s.queued { s with queued := [] }
  exact ⟨Later.rel.trans s { s with queued := [] } _ (.mod (.mod rfl rfl rfl rfl rfl rfl rfl rfl) rfl rfl) h1, h2⟩

theorem app_later (a c : St) : SFr Later (awaitApplicationData env a c) := by
  have hf := Later.rel (St := St)
  have h := drainQueued_later (St := St) (env := env)
  unfold awaitApplicationData sendCloseNotify
  simp only [bind_eq, pure_eq]
  sfr hf

theorem announce_later (a : St) (f g) : SFr Later (announceConnected env a f g) := by
  have hf := Later.rel (St := St)
  unfold announceConnected; simp only [bind_eq, pure_eq]; sfr hf
theorem ccs_later (a b : St) : SFr Later (awaitChangeCipherSpec env a b) := by
  have hf := Later.rel (St := St)
  unfold awaitChangeCipherSpec; simp only [bind_eq, pure_eq]; sfr hf
theorem derive_near (a b c d) : SFr Near (deriveMaster env a b c d : P St Unit) := by
  have hf := Near.rel (St := St)
  unfold deriveMaster; simp only [bind_eq]; sfr hf
end
end Verif.E12

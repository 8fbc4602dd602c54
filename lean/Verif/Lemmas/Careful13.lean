import Verif.Lemmas.Recv13
/-!
# Invariants of DTLS 1.3 sessions for a caller that stops after a failed call

Turning on the peer's encryption never fails in the silent way that leaves the caller unaware: the
records that are parsed again came one per buffer.
-/
namespace Verif.E13
open Verif Wire Window Timer Aead M
open Verif.E12 (insertAt Call)

/-! ## Methods that never fail silently -/

/-- `m` never ends in the failure that `handle_packet` swallows. -/
def NT {α : Type} (m : E α) : Prop := ∀ s, (m s).1 ≠ .fail .transient

section nt
variable {α β : Type} {env : Env}

theorem NT.bind {m : E α} {f : α → E β} (h : NT m) (hf : ∀ a, NT (f a)) : NT (M.bind m f) := by
  intro s
  unfold M.bind M.andThen
  have := h s
  split
  · exact hf _ _
  · rename_i f s' he; rw [he] at this; exact fun h => this (by cases h; rfl)
theorem NT.pure {b : β} : NT (M.pure b : E β) := fun _ => nofun
theorem NT.fatal (e : Error) : NT (M.fatal e : E β) := fun _ => nofun
theorem NT.panic : NT (M.panic : E β) := fun _ => nofun
theorem NT.get : NT (M.get : E Eng) := fun _ => nofun
theorem NT.modify {f : Eng → Eng} : NT (M.modify f : E Unit) := fun _ => nofun

theorem deriveNextSecret_nt (x : Bytes) : NT (deriveNextSecret env x) := by
  intro s; unfold deriveNextSecret; repeat' split
  all_goals nofun
theorem deriveEpochKeys_nt (x : Bytes) : NT (deriveEpochKeys env x) := by
  intro s; unfold deriveEpochKeys; repeat' split
  all_goals nofun

theorem updateSendKeys_nt : NT (updateSendKeys env) := by
  intro s; unfold updateSendKeys
  split
  · nofun
  · refine NT.bind (deriveNextSecret_nt _) (fun _ => .bind (deriveEpochKeys_nt _) fun _ => .bind .get fun t => ?_) _
    split
    · exact .panic
    · exact .modify

theorem createPlain_nt (c : UInt8) (b : Bool) (f : Bytes) : NT (createPlain c b f) := by
  intro s; unfold createPlain
  split
  · nofun
  · dsimp only; split
    · nofun
    · split <;> nofun

theorem createCipher_nt (c : UInt8) (e : Nat) (b : Bool) (f : Bytes) : NT (createCipher env c e b f) := by
  intro s; unfold createCipher
  split
  · nofun
  · unfold sealCipher queueCipher
    dsimp only
    repeat' split
    all_goals nofun

theorem resendLoop_nt (l : List Entry) : NT (resendLoop env l) := by
  induction l with
  | nil => exact .pure
  | cons e l ih =>
    unfold resendLoop
    split
    · exact .bind ih fun _ => .pure
    · refine .bind ?_ fun _ => .bind ih fun _ => .pure
      intro s; unfold resendEntry
      split
      · exact NT.bind (createPlain_nt _ _ _) (fun _ => .pure) s
      · exact NT.bind (createCipher_nt _ _ _ _) (fun _ => .pure) s

theorem flightResend_nt : NT (flightResend env) := fun _ => NT.bind (resendLoop_nt _) (fun _ => .modify) _

theorem processAck_nt (d : Bytes) : NT (processAck env d) := by
  intro s; unfold processAck
  split
  · nofun
  · unfold ackKeyUpdate
    split
    · exact NT.bind updateSendKeys_nt (fun _ => .modify) _
    · nofun

theorem classify_nt (r : Rx) : NT (classify env r) := by
  intro s; unfold classify classifyAlert
  split
  · nofun
  split
  · nofun
  split
  · exact NT.bind (processAck_nt _) (fun _ => .pure) s
  repeat' split
  all_goals nofun

theorem classifyAll_nt (l acc : List Rx) : NT (classifyAll env l acc) := by
  induction l generalizing acc with
  | nil => exact .pure
  | cons r l ih =>
    refine .bind (classify_nt r) fun o => ?_
    cases o <;> exact ih _

theorem insertIncoming_nt (rs : List Rx) : NT (insertIncoming env rs) := by
  intro s; unfold insertIncoming
  split
  · nofun
  split
  · nofun
  split
  · refine NT.bind (fun s => ?_) (fun _ s => ?_) s
    · unfold maybeResend
      split
      · split
        · exact flightResend_nt s
        · nofun
      · nofun
    · unfold insertHandshakeTail insertHs
      dsimp only
      repeat' split
      all_goals nofun
  · unfold insertBySeq
    dsimp only
    split <;> nofun

theorem openRecord_nt (b : Bytes) (f : Bool) (r : Rec13) : NT (openRecord env b f r) := by
  intro s; unfold openRecord
  dsimp only
  repeat' split
  all_goals nofun

theorem recordParse_nt (b : Bytes) : NT (recordParse env b) := by
  intro s; unfold recordParse
  dsimp only
  split
  · nofun
  split
  · split
    · exact openRecord_nt _ _ _ _
    · nofun
  · nofun
  · nofun

/-- A buffer of one record is never refused silently. -/
theorem parsePacket_nt {b : Bytes} (h : split13 b = ([b], .done)) : NT (parsePacket env b) := by
  unfold parsePacket recordsParse
  rw [h]
  refine .bind (.bind ?_ fun _ => classifyAll_nt _ _) fun rs => ?_
  · show NT (M.bind (recordParse env b) _)
    refine .bind (recordParse_nt b) fun r => ?_
    cases r with
    | none => exact .pure
    | some rx =>
      dsimp only [List.length_nil]
      rw [if_neg (by decide)]
      exact .pure
  · cases rs with
    | nil => exact .pure
    | cons r rs => exact insertIncoming_nt _

theorem reparse_nt {l : List Bytes} (h : ∀ b ∈ l, split13 b = ([b], .done)) : NT (reparse env l) := by
  induction l with
  | nil => exact .pure
  | cons b l ih =>
    exact .bind (parsePacket_nt (h b (List.mem_cons_self ..))) fun _ => ih fun b hb => h b (List.mem_cons_of_mem _ hb)

/-- Turning on the peer's encryption never fails silently. -/
theorem enable_nt {e : Eng} (hp : Prov env e .idle) (he : e.peerEnc = false) :
    (enablePeerEncryption env e).1 ≠ .fail .transient := by
  unfold enablePeerEncryption
  dsimp only
  split
  · nofun
  · refine reparse_nt ?_ _
    intro b hb
    obtain ⟨x, hx, rfl⟩ := List.mem_map.mp hb
    have hx1 := (List.mem_filter.mp hx).1
    obtain ⟨l, hl, hx2⟩ := List.mem_flatten.mp hx1
    have hm : x ∈ recs e .idle := by
      unfold recs
      exact List.mem_append_left _ (List.mem_flatten.mpr ⟨l, List.mem_of_mem_drop hl, hx2⟩)
    have hh := hp.held x hm
    cases ho : x.opened with
    | false => exact (hh.clear ho).1
    | true =>
      obtain ⟨_, _, _, _, _, ho, _⟩ := hh.opened ho
      exact absurd ho (hp.early he _ _ _ _ _ _ _)

end nt

/-! ## What every careful invariant stands on -/

section base
variable {env : Env}

/-- Records held, released data and the peer's encryption, by phase. -/
def Base (env : Env) (n p : Nat) (s : Eng) (h : Hand) : Prop :=
  RelInv n p s h ∧ (p < n → s.peerEnc = false) ∧ Prov env s h

theorem Base.step {n p : Nat} (hn : n ≤ 2) (hp4 : p < 4) {poll : Bool} {s s' : Eng} {a a' : Hand}
    (g : RStep env false poll (s, a) (s', a')) (h : Base env n p s a) : Base env n p s' a' := by
  refine ⟨RelInv.step g h.1, fun hp => ?_, h.2.2.step g.q (fun _ hr => ?_)⟩
  · have h0 := h.2.1 hp
    have same : s'.peerEnc = s.peerEnc → s'.peerEnc = false := fun e => e.trans h0
    cases g with
    | other g => exact same (congrArg RxPart.peerEnc g)
    | noted ho => exact same (openedSt_same ..).2.1
    | opened ho hr => exact same (openedSt_same ..).2.1
    | enable i hk => cases hk
    | release hk => cases hk
    | retain hk => cases hk
    | retry hk => cases hk
    | _ => exact same rfl
  · refine h.1.2.1 ?_
    rcases Nat.lt_or_ge p 3 with hp | hp
    · rw [h.1.1 hp] at hr; cases hr
    · omega

theorem prov_keep {keys : Bool} {e e' : Eng} (g : RMove env keys false e e') (h : Prov env e .idle) : Prov env e' .idle :=
  RSteps.keeps (env := env) (keys := keys) (poll := false) (P := Prov env)
    (fun _ _ _ _ g h => h.step g.q (fun h => nomatch h)) g h

theorem Prov.same {e e' : Eng} (h : Prov env e .idle) (h2 : e'.peerEnc = e.peerEnc)
    (h4 : e'.rx = e.rx) (h5 : e'.log = e.log) : Prov env e' .idle := by
  obtain ⟨a, b, c, d⟩ := h
  refine ⟨fun x hx => ?_, ?_, ?_, ?_⟩
  · unfold recs at hx
    rw [h4] at hx
    obtain ⟨x1, x2, x3⟩ := a x hx
    exact ⟨x1, by rw [h5]; exact x2, by rw [h2]; exact x3⟩
  · rw [h5]; exact b
  · rw [h5]; exact c
  · rw [h5, h2]; exact d

theorem base_phases {n : Nat} (hn : n ≤ 2) :
    Phases env (fun p e => Base env n p e .idle) (fun _ _ => True) :=
  phases_rx (fun _ hp _ _ _ _ _ => Base.step hn hp)
    (fun _ h => ⟨h.1, h.2.1, prov_keep (.one (.retry (keys := true) rfl)) h.2.2⟩)
    (fun _ _ _ _ => trivial)

theorem Base.enable {n : Nat} (hn : n ≤ 2) (hn1 : 1 ≤ n) {e : Eng} (h : Base env n (n - 1) e .idle) :
    wp (enablePeerEncryption env) e (fun _ e' => Base env n n e' .idle) (fun f _ => f ≠ .transient) := by
  have hp0 := h.2.1 (by omega)
  have hr0 := h.1.1 (by omega)
  have hv := prov_keep (enablePeerEncryption_rx e) h.2.2
  obtain ⟨i, _, g⟩ := enablePeerEncryption_split env false false e
  have hr : RelInv n n (enablePeerEncryption env e).2 .idle :=
    relInv_keep g ⟨fun _ => hr0, fun _ => rfl, fun h => by omega⟩
  have hn := enable_nt h.2.2 hp0
  refine wp_of (fun _ _ he => ?_) (fun f _ he => ?_)
  · rw [he] at hv hr; exact ⟨hr, fun h => by omega, hv⟩
  · rw [he] at hn; exact fun hf => hn (by rw [hf])

end base

/-! ## Putting them together -/

theorem Frame.and {env : Env} {P Q : Eng → Prop} (h : Frame env (Keeps P)) (g : Frame env (Keeps Q)) :
    Frame env (Keeps fun e => P e ∧ Q e) where
  refl _ h := h
  trans _ _ _ h1 h2 h := h2 (h1 h)
  handshake e t b := fun x => ⟨h.handshake e t b x.1, g.handshake e t b x.2⟩
  next e a i t := fun x => ⟨h.next e a i t x.1, g.next e a i t x.2⟩
  advance e := fun x => ⟨h.advance e x.1, g.advance e x.2⟩
  flightBegin e := fun x => ⟨h.flightBegin e x.1, g.flightBegin e x.2⟩
  flightStop _ e := fun x => ⟨h.flightStop trivial e x.1, g.flightStop trivial e x.2⟩
  tick e := fun x => ⟨h.tick e x.1, g.tick e x.2⟩
  suite e c hc := fun x => ⟨h.suite e c hc x.1, g.suite e c hc x.2⟩
  exporter e y := fun x => ⟨h.exporter e y x.1, g.exporter e y x.2⟩
  rollback e n := fun x => ⟨h.rollback e n x.1, g.rollback e n x.2⟩
  replace e n := fun x => ⟨h.replace e n x.1, g.replace e n x.2⟩
  ackFinal e := fun x => ⟨h.ackFinal e x.1, g.ackFinal e x.2⟩

theorem Phases.and {env : Env} {I J W V : Nat → Eng → Prop} (h : Phases env I W) (g : Phases env J V) :
    Phases env (fun p e => I p e ∧ J p e) (fun p e => W p e ∧ V p e) where
  frame p hp := (h.frame p hp).and (g.frame p hp)
  api p hp :=
    { packet := fun e x y => ⟨(h.api p hp).packet e x y.1, (g.api p hp).packet e x y.2⟩
      timeout := fun e x y => ⟨(h.api p hp).timeout e x y.1, (g.api p hp).timeout e x y.2⟩
      alert := fun e y => ⟨(h.api p hp).alert e y.1, (g.api p hp).alert e y.2⟩
      cancel := fun e y => ⟨(h.api p hp).cancel e y.1, (g.api p hp).cancel e y.2⟩
      abort := fun e y => ⟨(h.api p hp).abort e y.1, (g.api p hp).abort e y.2⟩ }
  poll p hp e b n y := ⟨h.poll p hp e b n y.1, g.poll p hp e b n y.2⟩
  app :=
    { data := fun e d hd y => ⟨h.app.data e d hd y.1, g.app.data e d hd y.2⟩
      asked := fun e y => ⟨h.app.asked e y.1, g.app.asked e y.2⟩
      keyUpdate := fun e y => ⟨h.app.keyUpdate e y.1, g.app.keyUpdate e y.2⟩
      auto := fun e a b y => ⟨h.app.auto e a b y.1, g.app.auto e a b y.2⟩
      newRecv := fun e y => ⟨h.app.newRecv e y.1, g.app.newRecv e y.2⟩
      ack := fun e y => ⟨h.app.ack e y.1, g.app.ack e y.2⟩ }
  retry e y := ⟨h.retry e y.1, g.retry e y.2⟩
  weak p hp e y := ⟨h.weak p hp e y.1, g.weak p hp e y.2⟩

/-- A client's invariant by phases that nothing is asked of when the peer's encryption could not be
turned on. -/
structure CCare (env : Env) (I W : Nat → Eng → Prop) (mid : Eng → Prop) : Prop extends Phases env I W where
  hs : ∀ e a b, I 0 e → wp (installHandshakeKeys env a b) e (fun _ => mid) (fun _ => W 0)
  enable : ∀ e, mid e → wp (enablePeerEncryption env) e (fun _ => I 1) (fun _ => W 0)
  weak1 : ∀ e, I 1 e → W 0 e
  appKeys : ∀ e a b, I 1 e → wp (installApplicationKeys env a b) e (fun _ => I 2) (fun _ => W 1)
  release : ∀ e, I 2 e → I 3 (releaseAppData e)

/-- The same for a server. -/
structure SCare (env : Env) (I W : Nat → Eng → Prop) (mid : Eng → Prop) : Prop extends Phases env I W where
  hs : ∀ e a b, I 0 e → wp (installHandshakeKeys env a b) e (fun _ => I 1) (fun _ => W 0)
  appKeys : ∀ e a b, I 1 e → wp (installApplicationKeys env a b) e (fun _ => mid) (fun _ => W 1)
  enable : ∀ e, mid e → wp (enablePeerEncryption env) e (fun _ => I 2) (fun _ => W 1)
  release : ∀ e, I 2 e → I 3 (releaseRetaining e)

/-- What is left of a careful invariant after a failed call. -/
def Rest (env : Env) (n : Nat) (I W : Nat → Eng → Prop) (p : Nat) (e : Eng) : Prop :=
  W p e ∧ (aheadOf n p e = false → I p e ∧ Base env n p e .idle)

theorem Phases.rest {env : Env} {n : Nat} (hn : n ≤ 2) {I W : Nat → Eng → Prop} (h : Phases env I W) :
    Phases env (fun p e => I p e ∧ Base env n p e .idle) (Rest env n I W) :=
  { h.and (base_phases (n := n) hn) with
    weak := fun p hp e x => ⟨h.weak p hp e x.1, fun _ => x⟩ }

theorem enable_on (env : Env) (e : Eng) : (enablePeerEncryption env e).2.peerEnc = true := by
  obtain ⟨i, _, g⟩ := enablePeerEncryption_split env false false e
  refine RSteps.keeps (env := env) (keys := false) (poll := false) (P := fun s _ => s.peerEnc = true) ?_ g rfl
  intro s s' a a' g h
  have same : s'.peerEnc = s.peerEnc → s'.peerEnc = true := fun e => e.trans h
  cases g with
  | other g => exact same (congrArg RxPart.peerEnc g)
  | noted ho => exact same (openedSt_same ..).2.1
  | opened ho hr => exact same (openedSt_same ..).2.1
  | enable i hk => cases hk
  | release hk => cases hk
  | retain hk => cases hk
  | retry hk => cases hk
  | _ => exact same rfl

theorem CCare.phases {env : Env} {I W : Nat → Eng → Prop} {mid : Eng → Prop} (h : CCare env I W mid) :
    CPhases env (fun p e => I p e ∧ Base env 1 p e .idle) (Rest env 1 I W)
      (fun e => mid e ∧ Base env 1 0 e .idle) where
  toPhases := h.toPhases.rest (by decide)
  hs e a b x := by
    refine wp_mono (wp_and (h.hs e a b x.1) (wp_installHandshakeKeys (s := e) (a := a) (b := b)
      (Q := fun _ e => Base env 1 0 e .idle)
      (F := fun f e' => f ≠ .transient ∧ (aheadOf 1 0 e' = false → I 0 e' ∧ Base env 1 0 e' .idle)) ?_
      (fun f h => ⟨h, fun _ => x⟩) (fun f _ h => ⟨h, (fun h => nomatch h)⟩)))
      (fun _ _ h => h) (fun _ _ h => ⟨⟨h.1, h.2.2⟩, h.2.1⟩)
    intro _ ks kr _ _ _
    obtain ⟨h1, h2, h3⟩ := x.2
    exact ⟨⟨fun _ => h1.1 (by decide), nofun, nofun⟩, fun _ => h2 (by decide), h3.same rfl rfl rfl⟩
  enable e x := by
    refine wp_mono (wp_and (wp_and (h.enable e x.1) (Base.enable (by decide) (by decide) x.2))
      (to_wp (R := fun e' => e'.peerEnc = true) (enable_on env e))) (fun _ _ h => h.1) ?_
    intro f e' ⟨⟨h1, h2⟩, h3⟩
    refine ⟨⟨h1, fun ha => ?_⟩, fun hf => absurd hf h2⟩
    simp [aheadOf, h3] at ha
  weak1 e x := ⟨h.weak1 e x.1, fun ha => by simp [aheadOf, x.2.1.2.1 (by decide)] at ha⟩
  appKeys e a b x := by
    refine wp_mono (wp_and (h.appKeys e a b x.1) (wp_installApplicationKeys (s := e) (a := a) (b := b)
      (Q := fun _ e => Base env 1 2 e .idle)
      (F := fun f e' => f ≠ .transient ∧ (aheadOf 1 1 e' = false → I 1 e' ∧ Base env 1 1 e' .idle)) ?_
      (fun f h => ⟨h, fun _ => x⟩) (fun f _ h => ⟨h, (fun h => nomatch h)⟩)))
      (fun _ _ h => h) (fun _ _ h => ⟨⟨h.1, h.2.2⟩, h.2.1⟩)
    intro _ ks kr _ _ _ _
    obtain ⟨h1, _, h3⟩ := x.2
    exact ⟨⟨fun _ => h1.1 (by decide), fun _ => h1.2.1 (by decide), nofun⟩, nofun,
      h3.same rfl rfl rfl⟩
  release e x := ⟨h.release e x.1, ⟨nofun, fun _ => x.2.1.2.1 (by decide), fun _ => rfl⟩, nofun,
      prov_keep (.one (.release (keys := true) rfl rfl)) x.2.2.2⟩

theorem SCare.phases {env : Env} {I W : Nat → Eng → Prop} {mid : Eng → Prop} (h : SCare env I W mid) :
    SPhases env (fun p e => I p e ∧ Base env 2 p e .idle) (Rest env 2 I W)
      (fun e => mid e ∧ Base env 2 1 e .idle) where
  toPhases := h.toPhases.rest (by decide)
  hs e a b x := by
    refine wp_mono (wp_and (h.hs e a b x.1) (wp_installHandshakeKeys (s := e) (a := a) (b := b)
      (Q := fun _ e => Base env 2 1 e .idle)
      (F := fun f e' => f ≠ .transient ∧ (aheadOf 2 0 e' = false → I 0 e' ∧ Base env 2 0 e' .idle)) ?_
      (fun f h => ⟨h, fun _ => x⟩) (fun f _ h => ⟨h, (fun h => nomatch h)⟩)))
      (fun _ _ h => h) (fun _ _ h => ⟨⟨h.1, h.2.2⟩, h.2.1⟩)
    intro _ ks kr _ _ _
    obtain ⟨h1, h2, h3⟩ := x.2
    exact ⟨⟨fun _ => h1.1 (by decide), nofun, nofun⟩, fun _ => h2 (by decide), h3.same rfl rfl rfl⟩
  appKeys e a b x := by
    refine wp_mono (wp_and (h.appKeys e a b x.1) (wp_installApplicationKeys (s := e) (a := a) (b := b)
      (Q := fun _ e => Base env 2 1 e .idle)
      (F := fun f e' => f ≠ .transient ∧ (aheadOf 2 1 e' = false → I 1 e' ∧ Base env 2 1 e' .idle)) ?_
      (fun f h => ⟨h, fun _ => x⟩) (fun f _ h => ⟨h, (fun h => nomatch h)⟩)))
      (fun _ _ h => h) (fun _ _ h => ⟨⟨h.1, h.2.2⟩, h.2.1⟩)
    intro _ ks kr _ _ _ _
    obtain ⟨h1, h2, h3⟩ := x.2
    exact ⟨h1, h2, h3.same rfl rfl rfl⟩
  enable e x := by
    refine wp_mono (wp_and (wp_and (h.enable e x.1) (Base.enable (by decide) (by decide) x.2))
      (to_wp (R := fun e' => e'.peerEnc = true) (enable_on env e))) (fun _ _ h => h.1) ?_
    intro f e' ⟨⟨h1, h2⟩, h3⟩
    refine ⟨⟨h1, fun ha => ?_⟩, fun hf => absurd hf h2⟩
    simp [aheadOf, h3] at ha
  release e x := ⟨h.release e x.1, ⟨nofun, fun _ => x.2.1.2.1 (by decide), fun _ => rfl⟩, nofun,
      prov_keep (.one (.retain (keys := true) rfl rfl)) x.2.2.2⟩

variable {env : PEnv} {cfg : Cfg} {R : Role} {s0 : Ses R.St}

theorem Start.base (h : Start env cfg R s0) {n : Nat} (hn : 1 ≤ n) : Base env.toEnv n 0 s0.eng .idle := by
  have h0 : s0.eng.release = false := congrArg RxPart.release h.rp0
  have h1 : s0.eng.peerEnc = false := congrArg RxPart.peerEnc h.rp0
  exact ⟨⟨fun _ => h0, fun h => by omega, nofun⟩, fun _ => h1, h.prov []⟩

/-- A careful invariant holds throughout for a careful caller. -/
theorem Start.care (h : Start env cfg R s0)
    {I J W V : Nat → Eng → Prop} {m n : Eng → Prop} {Q : Eng → Prop}
    (hc : CCare env.toEnv I W m) (hs : SCare env.toEnv J V n)
    (hw : ∀ p, p < 2 → ∀ e, W p e → Q e) (hv : ∀ p, p < 2 → ∀ e, V p e → Q e)
    (hi : ∀ p e, I p e → Q e) (hj : ∀ p e, J p e → Q e)
    (h0 : I 0 s0.eng) (h0' : J 0 s0.eng) (cs : List Call) (ha : Careful R env s0 cs) : Q (run R env s0 cs).2.eng :=
  h.carefully hc.phases hs.phases (fun p hp e x => hw p hp e x.1) (fun p hp e x => hv p hp e x.1)
    (fun _ _ _ g x => x.2 g) (fun _ _ _ g x => x.2 g)
    (fun p e x => hi p e x.1) (fun p e x => hj p e x.1) ⟨h0, h.base (by decide)⟩ ⟨h0', h.base (by decide)⟩ cs ha

end Verif.E13

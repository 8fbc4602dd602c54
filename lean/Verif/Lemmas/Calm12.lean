import Verif.Lemmas.Quiet12
/-!
# What the DTLS 1.2 engine may panic about during the handshake
-/
namespace Verif.E12
open Verif Wire Window Timer Aead M

/-- What is assumed of suites, search and random numbers. -/
structure Assumed (env : Env) : Prop where
  dec : DecShort env
  sane : SuiteSane env
  search : SearchOk env.search
  rand : ∀ t, (env.rand t 8).length = 8

/-- A message counter at its end, or an opened record of an epoch that nobody writes. -/
def Spent (e : Eng) : Prop := 65535 ≤ e.peerSeq ∨ 65535 ≤ e.nextSeq ∨ ¬ EpochOne e.log

/-- How an operation may fail: after an error nothing is said; after one that is not reported, `T`. -/
def Fail12 {σ : Type} (eng : σ → Eng) (T : σ → Prop) : Fault → σ → Prop
  | .transient, s => T s
  | .fatal _, _ => True
  | .panic, s => Spent (eng s)
  | .diverge, _ => True

abbrev EFail (T : Eng → Prop) : Fault → Eng → Prop := Fail12 id T

/-- The invariant of the engine. -/
structure EInv (env : Env) (e : Eng) : Prop where
  sane : SaneInv env e
  rx : RxInv e

section
variable {env : Env} {e e' : Eng} {α : Type}

theorem EInv.step (a : Assumed env) (h : EInv env e) (g : Step env (fun _ => True) e e') : EInv env e' :=
  ⟨h.sane.step a.sane g, Steps.rxInv a.dec (.one g) h.rx⟩

theorem EInv.core (a : Assumed env) (h : EInv env e) (g : Core env (fun _ => True) e e') : EInv env e' ∧ Keep e e' :=
  ⟨h.step a (.core g), g.keep⟩

theorem EInv.seal (a : Assumed env) (h : EInv env e) : CanSeal e := fun hk => h.sane.keySane a.sane hk

theorem EInv.calm (a : Assumed env) (h : EInv env e) {m : E α} (hc : Core env (fun _ => True) e (m e).2)
    (hp : (m e).1 = .fail .panic → Spent (m e).2) :
    wp m e (fun _ e' => EInv env e' ∧ Keep e e') (EFail fun e' => EInv env e' ∧ Keep e e') := by
  have h1 := h.core a hc
  refine wp_of (fun x e' he => ?_) (fun f e' he => ?_)
  · rw [he] at h1; exact h1
  · rw [he] at h1 hp
    cases f with
    | transient => exact h1
    | fatal _ => trivial
    | panic => exact hp rfl
    | diverge => trivial

theorem not_panic {r : Res α} (h : ¬ Bad r) : r ≠ .fail .panic := by rintro rfl; exact h trivial

theorem EInv.record (a : Assumed env) (h : EInv env e) (c : UInt8) (n : Nat) (sv fo : Bool) (f : Bytes)
    (hk : n ≥ 1 → e.keys ≠ none) :
    wp (createRecord env c n sv fo f) e (fun _ e' => EInv env e' ∧ Keep e e') (EFail fun e' => EInv env e' ∧ Keep e e') :=
  h.calm a (.record _ _ _ _ _ _ trivial hk) fun hp =>
    absurd hp (not_panic (createRecord_panic env c n sv fo f e (h.seal a) a.rand))

theorem fragmentLoop_panic (a : Assumed env) (t : UInt8) (q : Nat) (b : Bytes) (p n off : Nat) (e : Eng) (hk : CanSeal e) :
    (fragmentLoop env t q b p n off e).1 ≠ .fail .panic := by
  induction n generalizing off e with
  | zero => exact nofun
  | succ n ih =>
    unfold fragmentLoop
    dsimp only
    split
    · have h1 := createRecord_panic env ctHandshake (msgEpoch t) true false
        (hsFragment t q b off (chunkLen e p b.length off)) e hk a.rand
      have h2 := createRecord_frame env ctHandshake (msgEpoch t) true false
        (hsFragment t q b off (chunkLen e p b.length off)) e
      show (M.andThen (createRecord env ctHandshake (msgEpoch t) true false
        (hsFragment t q b off (chunkLen e p b.length off)) e) _).1 ≠ _
      cases hc : createRecord env ctHandshake (msgEpoch t) true false
        (hsFragment t q b off (chunkLen e p b.length off)) e with
      | mk o e1 =>
        rw [hc] at h1 h2
        cases o with
        | ok x =>
          simp only [M.andThen]
          split
          · exact nofun
          · exact ih _ _ (h2.canSeal hk)
        | fail f =>
          intro hx
          cases hx
          exact h1 trivial
    · exact nofun

theorem EInv.handshake (a : Assumed env) (h : EInv env e) (t : UInt8) (b : Bytes)
    (hk : msgEpoch t ≥ 1 → e.keys ≠ none) :
    wp (createHandshake env t b) e (fun _ e' => EInv env e' ∧ Keep e e') (EFail fun e' => EInv env e' ∧ Keep e e') := by
  refine h.calm a (.handshake _ _ _ hk) ?_
  unfold createHandshake
  dsimp only
  split
  · rename_i hn
    exact fun _ => .inr (.inl hn)
  · split
    · exact nofun
    · refine fun hp => absurd hp (fragmentLoop_panic a _ _ _ _ _ _ _ ?_)
      exact fun hk => let g := h.seal a hk; ⟨g.expl, g.prot, g.iv⟩

theorem EInv.timeout (a : Assumed env) (h : EInv env e) (now : Nat) :
    wp (handleTimeout env now) e (fun _ e' => EInv env e' ∧ Keep e e') (EFail fun e' => EInv env e' ∧ Keep e e') := by
  refine h.calm a (.timeout _ _) ?_
  unfold handleTimeout
  dsimp only
  split
  · exact nofun
  · exact nofun
  · refine fun hp => absurd hp (not_panic (flightResend_panic env _ ?_ a.rand))
    exact fun hk => let g := h.seal a hk; ⟨g.expl, g.prot, g.iv⟩
  · exact nofun

/-- The type of a parsed body. -/
def Body.kind : Body → Option UInt8
  | .helloRequest => some mtHelloRequest
  | .clientHello _ => some mtClientHello
  | .helloVerifyRequest _ _ => some mtHelloVerifyRequest
  | .serverHello _ => some mtServerHello
  | .certificate _ => some mtCertificate
  | .serverKeyExchange _ => some mtServerKeyExchange
  | .certificateRequest _ => some mtCertificateRequest
  | .serverHelloDone => some mtServerHelloDone
  | .certificateVerify _ _ => some mtCertificateVerify
  | .clientKeyExchange _ => some mtClientKeyExchange
  | .newSessionTicket _ => some mtNewSessionTicket
  | .finished _ => some mtFinished
  | .unknown _ => none

/-- The types of messages known. -/
def kinds : List UInt8 :=
  [mtHelloRequest, mtClientHello, mtHelloVerifyRequest, mtServerHello, mtCertificate, mtServerKeyExchange,
    mtCertificateRequest, mtServerHelloDone, mtCertificateVerify, mtClientKeyExchange, mtNewSessionTicket, mtFinished]

theorem parseBody_kind {t : UInt8} {suite : Option Nat} {b r : Bytes} {x : Body} (h : parseBody env t suite b = some (r, x))
    (hk : t ∈ kinds) : x.kind = some t := by
  unfold parseBody at h
  have done : ∀ {β : Type} {o : Option (Bytes × β)} {f : β → Body}, (o.map fun (r, x) => (r, f x)) = some (r, x) →
      ∃ y, x = f y := by
    intro β o f h
    cases o with
    | none => cases h
    | some p => cases h; exact ⟨_, rfl⟩
  have done' : ∀ {β : Type} {o : Nat → Option (Bytes × β)} {f : β → Body},
      (suite.bind fun s => (o s).map fun (r, x) => (r, f x)) = some (r, x) → ∃ y, x = f y := by
    intro β o f h
    cases suite with
    | none => cases h
    | some p => exact done h
  by_cases h1 : t = mtHelloRequest
  · rw [if_pos h1] at h; cases h; exact congrArg some h1.symm
  rw [if_neg h1] at h
  by_cases h2 : t = mtClientHello
  · rw [if_pos h2] at h; obtain ⟨y, rfl⟩ := done h; exact congrArg some h2.symm
  rw [if_neg h2] at h
  by_cases h3 : t = mtHelloVerifyRequest
  · rw [if_pos h3] at h; obtain ⟨y, rfl⟩ := done (f := fun x : Nat × Bytes => .helloVerifyRequest x.1 x.2) h; exact congrArg some h3.symm
  rw [if_neg h3] at h
  by_cases h4 : t = mtServerHello
  · rw [if_pos h4] at h; obtain ⟨y, rfl⟩ := done h; exact congrArg some h4.symm
  rw [if_neg h4] at h
  by_cases h5 : t = mtCertificate
  · rw [if_pos h5] at h; obtain ⟨y, rfl⟩ := done h; exact congrArg some h5.symm
  rw [if_neg h5] at h
  by_cases h6 : t = mtServerKeyExchange
  · rw [if_pos h6] at h; obtain ⟨y, rfl⟩ := done' h; exact congrArg some h6.symm
  rw [if_neg h6] at h
  by_cases h7 : t = mtCertificateRequest
  · rw [if_pos h7] at h; obtain ⟨y, rfl⟩ := done h; exact congrArg some h7.symm
  rw [if_neg h7] at h
  by_cases h8 : t = mtServerHelloDone
  · rw [if_pos h8] at h; cases h; exact congrArg some h8.symm
  rw [if_neg h8] at h
  by_cases h9 : t = mtCertificateVerify
  · rw [if_pos h9] at h; obtain ⟨y, rfl⟩ := done (f := fun x : Nat × Bytes => .certificateVerify x.1 x.2) h; exact congrArg some h9.symm
  rw [if_neg h9] at h
  by_cases h10 : t = mtClientKeyExchange
  · rw [if_pos h10] at h; obtain ⟨y, rfl⟩ := done' h; exact congrArg some h10.symm
  rw [if_neg h10] at h
  by_cases h11 : t = mtNewSessionTicket
  · rw [if_pos h11] at h; cases h; exact congrArg some h11.symm
  rw [if_neg h11] at h
  by_cases h12 : t = mtFinished
  · rw [if_pos h12] at h; obtain ⟨y, rfl⟩ := done' h; exact congrArg some h12.symm
  rw [if_neg h12] at h
  exfalso
  simp only [kinds, List.mem_cons, List.not_mem_nil, or_false] at hk
  rcases hk with hk | hk | hk | hk | hk | hk | hk | hk | hk | hk | hk | hk <;> contradiction

theorem nextHandshake_kind (t : UInt8) (hk : t ∈ kinds) (e : Eng) {x : Body} {e' : Eng}
    (h : nextHandshake env t e = (.ok (some x), e')) : x.kind = some t := by
  unfold nextHandshake at h
  split at h
  · cases h
  · rename_i hc
    obtain ⟨first, rest, h1, h2, h3⟩ := hasComplete_first (s := e) (t := t) (by simpa using hc)
    rw [h1] at h
    unfold defragment at h
    dsimp only at h
    split at h; · cases h
    split at h; · cases h
    split at h; · cases h
    rename_i hb
    split at h; · cases h
    split at h; · cases h
    cases h
    rw [h3] at hb
    exact parseBody_kind hb hk

theorem EInv.taken (a : Assumed env) (h : EInv env e) (t : UInt8) (hk : t ∈ kinds) :
    wp (nextHandshake env t) e (fun m e' => (EInv env e' ∧ Keep e e') ∧ ∀ x, m = some x → x.kind = some t)
      (EFail fun e' => EInv env e' ∧ Keep e e') := by
  have h1 := h.calm a (m := nextHandshake env t) (.nextHandshake _ _) (by
    unfold nextHandshake
    split
    · exact nofun
    · rename_i hc
      obtain ⟨first, rest, h1, h2, h3⟩ := hasComplete_first (s := e) (t := t) (by simpa using hc)
      rw [h1]
      unfold defragment
      dsimp only
      split; · exact nofun
      split; · exact nofun
      split; · exact nofun
      split; · exact nofun
      split
      · rename_i hn
        rw [h2] at hn
        exact fun _ => .inl hn
      · exact nofun)
  refine wp_of (fun m e' he => ?_) (fun f e' he => wp_fail h1 he)
  refine ⟨wp_ok h1 he, ?_⟩
  rintro x rfl
  exact nextHandshake_kind t hk e he

theorem EInv.ccs (a : Assumed env) (h : EInv env e) :
    wp (nextRecord ctCCS) e (fun _ e' => EInv env e' ∧ Keep e e') (EFail fun e' => EInv env e' ∧ Keep e e') := by
  refine h.calm a (m := nextRecord ctCCS) (.nextRecord _ _) ?_
  unfold nextRecord
  split
  · exact nofun
  · rename_i r hr
    split
    · exact nofun
    · rename_i ht
      have : r.hss = [] := (h.rx.recs r (List.mem_of_find?_eq_some hr)).wf (by
        rw [Classical.not_not.mp ht]; decide)
      rw [this]
      exact nofun

theorem parse_spent (a : Assumed env) (p : Bytes) (h : EInv env e) (hp : e.peerEnc = true)
    (hx : (parsePacket env p e).1 = .fail .panic) : ¬ EpochOne (parsePacket env p e).2.log := by
  intro h1
  have hk := h.sane.enc hp
  exact not_panic (parsePacket_panic a.dec a.search a.rand p hp h.rx hk (h.sane.keySane a.sane hk) h1) hx

theorem parse_enc (p : Bytes) (e : Eng) : (parsePacket env p e).2.peerEnc = e.peerEnc := by
  obtain ⟨_, _, _, _, _, _, _, _, _, _, _, _, h⟩ := parsePacket_arrive env p e
  rw [h]

theorem reparse_panic (a : Assumed env) (l : List Bytes) (e : Eng) (h : EInv env e) (hp : e.peerEnc = true)
    (hx : (reparse env l e).1 = .fail .panic) : ¬ EpochOne (reparse env l e).2.log := by
  induction l generalizing e with
  | nil => cases hx
  | cons b l ih =>
    have e0 : reparse env (b :: l) e = M.andThen (parsePacket env b e) fun _ => reparse env l := rfl
    rw [e0] at hx ⊢
    have h1 := parse_spent a b h hp
    have h2 := parse_enc (env := env) b e
    have h3 := (h.core a (.packet e b)).1
    cases hc : parsePacket env b e with
    | mk o e1 =>
      rw [hc] at hx h1 h2 h3
      cases o with
      | ok x => exact ih e1 h3 (h2.trans hp) hx
      | fail f => exact h1 (by cases f <;> first | rfl | cases hx)

theorem EInv.enable (a : Assumed env) (h : EInv env e) (hk : e.keys ≠ none) :
    wp (enablePeerEncryption env) e (fun _ e' => EInv env e' ∧ Keep e e') (EFail fun e' => EInv env e' ∧ Keep e e') := by
  refine h.calm a (.enablePeer _ hk) ?_
  unfold enablePeerEncryption
  dsimp only
  split
  · exact nofun
  · rename_i i hi
    refine fun hx => .inr (.inr (reparse_panic a _ _ ⟨⟨h.sane.unset, h.sane.set, h.sane.iv, fun _ => hk⟩, ?_⟩ rfl hx))
    have h1 : (e.rx.take i).flatten.Sublist e.rx.flatten := by
      conv => rhs; rw [← List.take_append_drop i e.rx]
      rw [List.flatten_append]
      exact List.sublist_append_left _ _
    have h3 : ∀ r ∈ (e.rx.take i).flatten, r.rcd.epoch ≠ 1 := by
      rw [List.findIdx?_eq_some_iff_getElem] at hi
      obtain ⟨hlt, _, hall⟩ := hi
      intro r hr he
      obtain ⟨x, hx, hri⟩ := List.mem_flatten.mp hr
      obtain ⟨j, hj, rfl⟩ := List.mem_take_iff_getElem.mp hx
      have := hall j (by omega)
      simp at this
      exact this r hri he
    refine ⟨h.rx.win, h.rx.nodup, ?_, ?_, h.rx.del, Nat.le_trans (by simp; omega) h.rx.len⟩
    · intro r hr
      have g := h.rx.recs r (h1.subset hr)
      exact ⟨g.wf, g.app, g.opened, fun _ he => absurd he (h3 r hr)⟩
    · exact h.rx.once.sublist (List.Sublist.append (List.Sublist.refl _) (Fewer.of_sublist h1).live)

/-! ## Datagrams before the peer's encryption is on -/

/-- A datagram with a record in it that has this epoch and number. -/
def Carries (p : Bytes) (epoch seq : Nat) : Prop :=
  ∃ (before : Bytes) (r : Rec12) (after : Bytes), p = before ++ serialize12 r ++ after ∧ r.epoch = epoch ∧ r.seq = seq

/-- The datagram repeats a record of a later epoch that the first record of a queued datagram is already. -/
def Repeats (e : Eng) (p : Bytes) : Prop :=
  e.peerEnc = false ∧ ∃ item ∈ e.rx, ∃ x, item.head? = some x ∧ x.rcd.epoch ≠ 0 ∧ Carries p x.rcd.epoch x.rcd.seq

theorem carries_slice {p sl : Bytes} (h : sl ∈ (split12 p).1) {rest : Bytes} {rx : Rx}
    (hp : parsedRecord sl 0 false = .ok rest rx) : Carries p rx.rcd.epoch rx.rcd.seq := by
  obtain ⟨h12, _⟩ := parsedRecord_ok hp
  obtain ⟨_, hsl⟩ := Props.Wire.record12_exact _ _ _ h12
  obtain ⟨r', h1, _⟩ := Props.Wire.split12_partition p
  obtain ⟨a, b, hab⟩ := List.append_of_mem h
  rw [hab] at h1
  refine ⟨a.flatten, rx.rcd, rest ++ b.flatten ++ r', ?_, rfl, rfl⟩
  rw [h1, hsl]
  simp

theorem parseSlices_from (sls : List Bytes) (se : SplitEnd) (acc : List Rx) (e : Eng) (hp : e.peerEnc = false)
    {rs : List Rx} {e' : Eng} (h : parseSlices env sls se acc e = (.ok rs, e')) :
    ∀ r ∈ rs, r ∈ acc ∨ ∃ sl ∈ sls, ∃ rest, parsedRecord sl 0 false = .ok rest r := by
  induction sls generalizing acc e with
  | nil =>
    cases se <;> cases h
    exact fun r hr => .inl hr
  | cons sl sls ih =>
    have h : M.andThen (recordParse env sl e) _ = (.ok rs, e') := h
    unfold recordParse at h
    cases hpr : parsedRecord sl 0 false with
    | ok rest rx =>
      simp only [hpr, if_pos (Or.inr hp)] at h
      simp only [M.andThen] at h
      split at h
      · cases h
      · intro r hr
        rcases ih _ _ hp h r hr with hr | ⟨x, hx, g⟩
        · rcases List.mem_append.mp hr with hr | hr
          · exact .inl hr
          · rw [List.mem_singleton.mp hr]
            exact .inr ⟨sl, List.mem_cons_self .., rest, hpr⟩
        · exact .inr ⟨x, List.mem_cons_of_mem _ hx, g⟩
    | panic => simp only [hpr] at h; cases h
    | error =>
      simp only [hpr] at h
      intro r hr
      rcases ih _ _ hp h r hr with hr | ⟨x, hx, g⟩
      · exact .inl hr
      · exact .inr ⟨x, List.mem_cons_of_mem _ hx, g⟩
    | failure =>
      simp only [hpr] at h
      intro r hr
      rcases ih _ _ hp h r hr with hr | ⟨x, hx, g⟩
      · exact .inl hr
      · exact .inr ⟨x, List.mem_cons_of_mem _ hx, g⟩

theorem recordsParse_carries (p : Bytes) (e : Eng) (hp : e.peerEnc = false) {rs : List Rx} {e' : Eng}
    (h : recordsParse env p e = (.ok rs, e')) : ∀ r ∈ rs, Carries p r.rcd.epoch r.rcd.seq := by
  have h : M.andThen (parseSlices env (split12 p).1 (split12 p).2 [] e) _ = (.ok rs, e') := h
  cases hc : parseSlices env (split12 p).1 (split12 p).2 [] e with
  | mk o e1 =>
    rw [hc] at h
    cases o with
    | fail f => cases h
    | ok l =>
      have h1 := parseSlices_from _ _ _ _ hp hc
      simp only [M.andThen] at h
      obtain ⟨⟨t, ht, rfl⟩, _⟩ := wp_ok (classifyAll_out l [] e1) h
      intro r hr
      rcases h1 r (ht.subset hr) with hn | ⟨sl, hsl, rest, g⟩
      · cases hn
      · exact carries_slice hsl g

theorem insertIncoming_clash (a : Assumed env) (e : Eng) (hk : CanSeal e) (hp : e.peerEnc = false) (rs : List Rx)
    (h : (insertIncoming env rs e).1 = .fail .panic) :
    ∃ item ∈ e.rx, ∃ x r, item.head? = some x ∧ x.rcd.epoch ≠ 0 ∧ r ∈ rs ∧ r.rcd.epoch = x.rcd.epoch ∧ r.rcd.seq = x.rcd.seq := by
  unfold insertIncoming at h
  split at h
  · cases h
  split at h
  · cases h
  rename_i r rest
  split at h
  · exfalso
    have h : (M.andThen (maybeResend env (r :: rest) e) _).1 = .fail .panic := h
    have g : ¬ Bad (maybeResend env (r :: rest) e).1 := by
      unfold maybeResend
      split
      · split
        · exact flightResend_panic env e hk a.rand
        · exact id
      · exact id
    cases hc : maybeResend env (r :: rest) e with
    | mk o s1 =>
      rw [hc] at g h
      cases o with
      | ok a =>
        simp only [M.andThen] at h
        unfold insertHandshakeTail insertHs at h
        dsimp only at h
        revert h
        repeat' split
        all_goals exact nofun
      | fail f => cases h; exact g trivial
  · unfold insertNonHandshake at h
    split at h
    · cases h
    rw [if_neg (by simp [hp])] at h
    unfold insertBySeq at h
    dsimp only at h
    split at h
    · cases h
    rename_i i hat
    split at h
    · cases h
    rename_i he
    have g := a.search e.tick (e.rx.map fun item => cmpPair (seqKey item) (seqKey (r :: rest)))
    rw [hat] at g
    simp only at g
    rw [List.getElem?_map] at g
    obtain ⟨item, g1, g2⟩ := Option.map_eq_some_iff.mp g
    have hmem : item ∈ e.rx := List.mem_of_getElem? g1
    have he' : r.rcd.epoch ≠ 0 := he
    cases item with
    | nil =>
      exfalso
      simp only [seqKey, List.head?_nil, List.head?_cons, cmpPair] at g2
      rw [Ordering.then_eq_eq] at g2
      exact he' (Nat.compare_eq_eq.mp g2.1).symm
    | cons x xs =>
      simp only [seqKey, List.head?_cons, cmpPair] at g2
      rw [Ordering.then_eq_eq] at g2
      have g3 := Nat.compare_eq_eq.mp g2.1
      exact ⟨_, hmem, x, r, rfl, by rw [g3]; exact he', List.mem_cons_self .., g3.symm, (Nat.compare_eq_eq.mp g2.2).symm⟩

/-- A datagram makes the engine panic only if it repeats a record of a later epoch, -/
theorem parsePacket_repeats (a : Assumed env) (p : Bytes) (h : EInv env e) (hp : e.peerEnc = false)
    (hx : (parsePacket env p e).1 = .fail .panic) : Repeats e p := by
  have hx : (M.andThen (recordsParse env p e)
      fun rs => match rs with | [] => M.pure () | _ => insertIncoming env rs).1 = .fail .panic := hx
  have h1 := recordsParse_panic a.dec p e fun h => by rw [hp] at h; cases h
  have h2 := recordsParse_batch a.dec p e
  cases hc : recordsParse env p e with
  | mk o e1 =>
    rw [hc] at h1 hx
    cases o with
    | fail f => cases hx; exact absurd trivial h1
    | ok rs =>
      have hb : Batch e e1 rs := wp_ok h2 hc
      have h3 := recordsParse_carries p e hp hc
      simp only [M.andThen] at hx
      cases rs with
      | nil => cases hx
      | cons r rest =>
        obtain ⟨es, rp, cf, cr, g, _⟩ := hb
        have hrx : e1.rx = e.rx := by rw [g]
        obtain ⟨item, m1, x, r', m2, m3, m4, m5, m6⟩ := insertIncoming_clash a e1
          (by rw [g]; exact fun hk => let g := h.seal a hk; ⟨g.expl, g.prot, g.iv⟩) (by rw [g]; exact hp) _ hx
        refine ⟨hp, item, hrx ▸ m1, x, m2, m3, ?_⟩
        rw [← m5, ← m6]
        exact h3 r' m4

/-- or opens a record of an epoch other than 1. -/
theorem EInv.packet (a : Assumed env) (h : EInv env e) (p : Bytes) :
    wp (parsePacket env p) e (fun _ e' => EInv env e' ∧ Keep e e')
      (fun f e' => (f = .panic ∧ Repeats e p) ∨ EFail (fun e' => EInv env e' ∧ Keep e e') f e') := by
  by_cases hp : e.peerEnc = true
  · refine wp_mono (h.calm a (.packet _ p) fun hx => .inr (.inr (parse_spent a p h hp hx))) (fun _ _ h => h) fun _ _ h => .inr h
  · have hp : e.peerEnc = false := by simpa using hp
    have h1 := h.core a (.packet e p)
    refine wp_of (fun x e' he => ?_) (fun f e' he => ?_)
    · rw [he] at h1; exact h1
    · rw [he] at h1
      cases f with
      | transient => exact .inr h1
      | fatal _ => exact .inr trivial
      | panic => exact .inl ⟨rfl, parsePacket_repeats a p h hp (by rw [he])⟩
      | diverge => exact .inr trivial

end
end Verif.E12

import Verif.Lemmas.Start12
/-!
# Datagrams in which no record opens (DTLS 1.2)
-/
namespace Verif.E12
open Verif Wire Window Timer Aead M

/-- No protected record of the datagram opens in state `s`: each was seen before, is too short, or fails
authentication. -/
def Unopened (env : Env) (s : Eng) (p : Bytes) : Prop :=
  ∀ sl ∈ (split12 p).1, ∀ rest r, parse12 sl 0 = .ok rest r → r.epoch ≠ 0 →
    s.replay.check r.seq = false ∨ r.length < s.minProt ∨
    ∀ key iv nonce, s.peerKey = some (key, iv) →
      recordNonce s.explicitLen iv ((sl.drop 13).take s.explicitLen) r.epoch r.seq = some nonce →
      env.dec key nonce (aad12 r.ctype r.epoch r.seq (r.length - s.minProt)) (sl.drop (13 + s.explicitLen)) = none

/-- A record from one of the slices that was not opened although the peer's encryption is on. -/
structure Plain (all : List Bytes) (r : Rx) : Prop where
  src : ∃ sl ∈ all, ∃ rest, parse12 sl 0 = .ok rest r.rcd
  epoch : r.rcd.epoch = 0
  ctype : r.rcd.ctype = ctCCS ∨ r.rcd.ctype = ctAlert ∨ r.rcd.ctype = ctHandshake

/-- Keys and IVs have the lengths the cipher suite needs. -/
structure KeySane (s : Eng) : Prop where
  expl : s.explicitLen = 0 ∨ s.explicitLen = 8
  prot : s.explicitLen ≤ s.minProt
  iv : ∀ k, s.keys = some k → k.clientIv.length + s.explicitLen = 12 ∧ k.serverIv.length + s.explicitLen = 12

theorem KeySane.nonce {s : Eng} (h : KeySane s) {key iv : Bytes} (hk : s.peerKey = some (key, iv)) (x : Bytes)
    (hx : x.length = s.explicitLen) (e q : Nat) : ∃ n, recordNonce s.explicitLen iv x e q = some n := by
  have hi : iv.length + s.explicitLen = 12 := by
    unfold Eng.peerKey at hk
    obtain ⟨k, h1, h2⟩ := Option.map_eq_some_iff.mp hk
    have := h.iv k h1
    split at h2 <;> (cases h2; omega)
  unfold recordNonce
  split
  · exact ⟨_, by rw [if_pos (by omega)]⟩
  · exact ⟨_, by rw [nonceNew, if_pos (by omega)]⟩

theorem bind_panic {α β : Type} {p : PRes α} {f : Bytes → α → PRes β} (h : p.bind f = .panic) :
    p = .panic ∨ ∃ r a, p = .ok r a ∧ f r a = .panic := by
  cases p with
  | ok r a => exact .inr ⟨r, a, rfl, h⟩
  | error => cases h
  | failure => cases h
  | panic => exact .inl rfl

theorem beNat_total (n : Nat) (i : Bytes) : beNat n i ≠ .panic := by
  unfold beNat; split <;> nofun

theorem take_total (n : Nat) (i : Bytes) : take n i ≠ .panic := by
  unfold take; split <;> nofun

theorem parse12_total (sl : Bytes) : parse12 sl 0 ≠ .panic := by
  intro h
  unfold parse12 at h
  rcases bind_panic h with h | ⟨_, _, _, h⟩
  · exact beNat_total _ _ h
  rcases bind_panic h with h | ⟨_, _, _, h⟩
  · exact beNat_total _ _ h
  split at h; · cases h
  rcases bind_panic h with h | ⟨_, _, _, h⟩
  · exact beNat_total _ _ h
  dsimp only at h
  split at h; · cases h
  rcases bind_panic h with h | ⟨_, _, _, h⟩
  · exact beNat_total _ _ h
  rcases bind_panic h with h | ⟨_, _, _, h⟩
  · exact beNat_total _ _ h
  split at h; · omega
  rcases bind_panic h with h | ⟨_, _, _, h⟩
  · exact take_total _ _ h
  cases h

/-- One record of such a datagram. -/
theorem recordParse_unopened {env : Env} {s : Eng} (hp : s.peerEnc = true) {all : List Bytes}
    {sl : Bytes} (hm : sl ∈ all) (hu : ∀ rest r, parse12 sl 0 = .ok rest r → r.epoch ≠ 0 →
      s.replay.check r.seq = false ∨ r.length < s.minProt ∨
      ∀ key iv nonce, s.peerKey = some (key, iv) →
        recordNonce s.explicitLen iv ((sl.drop 13).take s.explicitLen) r.epoch r.seq = some nonce →
        env.dec key nonce (aad12 r.ctype r.epoch r.seq (r.length - s.minProt)) (sl.drop (13 + s.explicitLen)) = none) :
    recordParse env sl s = (.ok none, s) ∨ (∃ rx, recordParse env sl s = (.ok (some rx), s) ∧ Plain all rx) ∨
    (recordParse env sl s = (.fail (.fatal .crypto), s) ∧ s.release = false) ∨
    (recordParse env sl s = (.fail .panic, s) ∧ (KeySane s → s.peerKey = none)) := by
  unfold recordParse
  cases hpr : parsedRecord sl 0 false with
  | ok rest rx =>
    obtain ⟨h12, _⟩ := parsedRecord_ok hpr
    obtain ⟨hwf, hsl⟩ := Props.Wire.record12_exact _ _ _ h12
    simp only [hp]
    by_cases h0 : rx.rcd.epoch = 0
    · simp only [h0, true_or, if_true]
      exact .inr (.inl ⟨rx, rfl, ⟨sl, hm, _, h12⟩, h0, hwf.2.2.2.2.2 h0⟩)
    · simp only [h0, false_or, Bool.true_eq_false, if_false]
      have hu := hu _ _ h12 h0
      unfold openRecord
      by_cases hck : s.replay.check rx.rcd.seq = true
      rotate_left
      · simp [hck]
      simp only [hck, Bool.not_true, Bool.false_eq_true, if_false]
      by_cases hm : rx.rcd.length < s.minProt
      · simp [hm]
      simp only [hm, if_false]
      cases hpk : s.peerKey with
      | none => exact .inr (.inr (.inr ⟨rfl, fun _ => rfl⟩))
      | some ki =>
        obtain ⟨key, iv⟩ := ki
        have hll : 13 + rx.rcd.length ≤ sl.length := by
          have : rx.rcd.length = rx.rcd.fragment.length := hwf.2.2.2.1
          rw [hsl]; simp [serialize12]; omega
        simp only
        by_cases hlen : sl.length < 13 + s.explicitLen
        · simp only [hlen, if_true]
          exact .inr (.inr (.inr ⟨trivial, fun g => by have := g.prot; omega⟩))
        simp only [hlen, if_false]
        cases hn : recordNonce s.explicitLen iv ((sl.drop 13).take s.explicitLen) rx.rcd.epoch rx.rcd.seq with
        | none =>
          refine .inr (.inr (.inr ⟨rfl, fun g => ?_⟩))
          obtain ⟨n, g⟩ := g.nonce hpk ((sl.drop 13).take s.explicitLen) (by simp; omega) rx.rcd.epoch rx.rcd.seq
          rw [hn] at g; cases g
        | some nonce =>
          have : env.dec key nonce (openAad s rx.rcd) (sl.drop (13 + s.explicitLen)) = none := by
            rcases hu with g | g | g
            · rw [hck] at g; cases g
            · exact absurd g hm
            · exact g key iv nonce hpk hn
          simp only [this]
          cases hr : s.release with
          | true => simp
          | false => simp
  | panic =>
    exfalso
    unfold parsedRecord at hpr
    unfold PRes.bind at hpr
    split at hpr
    · cases hpr
    · cases hpr
    · cases hpr
    · rename_i g
      exact parse12_total _ g
  | error => exact .inl rfl
  | failure => exact .inl rfl

/-- The possible ends of parsing such a datagram. -/
theorem parseSlices_unopened {env : Env} {s : Eng} (hp : s.peerEnc = true) {all : List Bytes} (sls : List Bytes)
    (e : SplitEnd) (hs : ∀ sl ∈ sls, sl ∈ all)
    (hu : ∀ sl ∈ sls, ∀ rest r, parse12 sl 0 = .ok rest r → r.epoch ≠ 0 →
      s.replay.check r.seq = false ∨ r.length < s.minProt ∨
      ∀ key iv nonce, s.peerKey = some (key, iv) →
        recordNonce s.explicitLen iv ((sl.drop 13).take s.explicitLen) r.epoch r.seq = some nonce →
        env.dec key nonce (aad12 r.ctype r.epoch r.seq (r.length - s.minProt)) (sl.drop (13 + s.explicitLen)) = none)
    (acc : List Rx) (ha : ∀ r ∈ acc, Plain all r) :
    (∃ rs, parseSlices env sls e acc s = (.ok rs, s) ∧ ∀ r ∈ rs, Plain all r) ∨
    parseSlices env sls e acc s = (.fail .transient, s) ∨
    (parseSlices env sls e acc s = (.fail (.fatal .crypto), s) ∧ s.release = false) ∨
    (parseSlices env sls e acc s = (.fail .panic, s) ∧ (KeySane s → s.peerKey = none)) := by
  induction sls generalizing acc with
  | nil =>
    cases e
    · exact .inl ⟨acc, rfl, ha⟩
    · exact .inr (.inl rfl)
    · exact .inr (.inl rfl)
  | cons sl sls ih =>
    have ih := fun acc ha => ih (fun sl' h => hs sl' (List.mem_cons_of_mem _ h))
      (fun sl' h => hu sl' (List.mem_cons_of_mem _ h)) acc ha
    show (∃ rs, M.andThen (recordParse env sl s) _ = _ ∧ _) ∨ M.andThen (recordParse env sl s) _ = _ ∨
      (M.andThen (recordParse env sl s) _ = _ ∧ _) ∨ (M.andThen (recordParse env sl s) _ = _ ∧ _)
    rcases recordParse_unopened hp (hs sl (List.mem_cons_self ..)) (hu sl (List.mem_cons_self ..)) with h | ⟨rx, h, hx⟩ | ⟨h, hr⟩ | ⟨h, hr⟩
    · rw [h]; exact ih acc ha
    · rw [h]
      simp only [M.andThen]
      split
      · exact .inr (.inl rfl)
      · refine ih (acc ++ [rx]) fun r hm => ?_
        rcases List.mem_append.mp hm with g | g
        · exact ha r g
        · rw [List.mem_singleton.mp g]; exact hx
    · rw [h]; exact .inr (.inr (.inl ⟨rfl, hr⟩))
    · rw [h]; exact .inr (.inr (.inr ⟨rfl, hr⟩))

/-- Of the plaintext records only handshake messages that ask for a retransmission are kept. -/
theorem classify_plain {s : Eng} (hp : s.peerEnc = true) {all : List Bytes} {r : Rx} (h : Plain all r) :
    classify r s = (.ok none, s) ∨ (classify r s = (.ok (some r), s) ∧ r.firstDupe ≠ none) := by
  unfold classify classifyAlert
  rcases h.ctype with g | g | g
  · simp [g, h.epoch, hp]
  · simp [g, h.epoch, hp]
  · by_cases hd : r.firstDupe = none
    · simp [g, h.epoch, hp, hd]
    · refine .inr ⟨?_, hd⟩
      rw [if_neg (fun h => absurd (g.symm.trans h.1) (by decide)), if_neg (fun h => hd h.2.2.2), if_neg (by rw [g]; decide),
        if_neg (fun h => absurd (g.symm.trans h.2) (by decide))]

theorem classifyAll_plain {s : Eng} (hp : s.peerEnc = true) {all : List Bytes} (rs acc : List Rx)
    (h : ∀ r ∈ rs, Plain all r) (ha : ∀ r ∈ acc, Plain all r ∧ r.firstDupe ≠ none) :
    ∃ rs', classifyAll rs acc s = (.ok rs', s) ∧ ∀ r ∈ rs', Plain all r ∧ r.firstDupe ≠ none := by
  induction rs generalizing acc with
  | nil => exact ⟨acc, rfl, ha⟩
  | cons r rs ih =>
    have ih := fun acc ha => ih acc (fun r' h' => h r' (List.mem_cons_of_mem _ h')) ha
    have hr := h r (List.mem_cons_self ..)
    show ∃ rs', M.andThen (classify r s) _ = _ ∧ _
    rcases classify_plain hp hr with g | ⟨g, hd⟩
    · rw [g]; exact ih acc ha
    · rw [g]
      refine ih (acc ++ [r]) fun r' hm => ?_
      rcases List.mem_append.mp hm with g | g
      · exact ha r' g
      · rw [List.mem_singleton.mp g]; exact ⟨hr, hd⟩

/-- What a datagram in which no record opens can do once the peer's encryption is on. -/
inductive Nothing (env : Env) (s : Eng) (p : Bytes) : Prop
  /-- dropped -/
  | dropped (h : parsePacket env p s = (.ok (), s)) : Nothing env s p
  | transient (h : parsePacket env p s = (.fail .transient, s)) : Nothing env s p
  /-- during the handshake a record that does not open is fatal -/
  | crypto (h : parsePacket env p s = (.fail (.fatal .crypto), s)) (hr : s.release = false) : Nothing env s p
  /-- keys are missing or have wrong lengths -/
  | panic (h : parsePacket env p s = (.fail .panic, s)) (hk : KeySane s → s.peerKey = none) : Nothing env s p
  /-- a retransmitted plaintext handshake message meets a full receive queue -/
  | full (h : parsePacket env p s = (.fail (.fatal .receiveQueueFull), s)) (hl : s.rx.length ≥ s.cfg.maxRx)
      (hx : ∃ sl ∈ (split12 p).1, ∃ rest r, parse12 sl 0 = .ok rest r ∧ r.epoch = 0) : Nothing env s p
  /-- a retransmitted plaintext handshake message makes us retransmit -/
  | resend (h : parsePacket env p s = flightResend env s) (hc : s.confirmed = false)
      (hx : ∃ sl ∈ (split12 p).1, ∃ rest r, parse12 sl 0 = .ok rest r ∧ r.epoch = 0) : Nothing env s p

theorem parsePacket_unopened {env : Env} {s : Eng} {p : Bytes} (hp : s.peerEnc = true) (hu : Unopened env s p) :
    Nothing env s p := by
  have e0 : parsePacket env p s = M.andThen (M.andThen (parseSlices env (split12 p).1 (split12 p).2 [] s)
      fun rs => classifyAll rs []) fun rs => match rs with | [] => M.pure () | _ => insertIncoming env rs := rfl
  rcases parseSlices_unopened (env := env) hp (split12 p).1 (split12 p).2 (fun _ h => h) hu [] (by simp) with
    ⟨rs, h, hr⟩ | h | ⟨h, hr⟩ | ⟨h, hr⟩
  · obtain ⟨rs', h', hr'⟩ := classifyAll_plain hp rs [] hr (by simp)
    rw [h] at e0
    simp only [M.andThen, h'] at e0
    cases rs' with
    | nil => exact .dropped e0
    | cons r rs' =>
      obtain ⟨⟨⟨sl, hr5, rest, hr6⟩, hr1, hr2⟩, hr3⟩ := hr' r (List.mem_cons_self ..)
      simp only [insertIncoming] at e0
      by_cases hl : s.rx.length ≥ s.cfg.maxRx
      · rw [if_pos hl] at e0; exact .full e0 hl ⟨sl, hr5, rest, _, hr6, hr1⟩
      · rw [if_neg hl] at e0
        cases hh : r.hss with
        | nil => simp [Rx.firstDupe, hh] at hr3
        | cons h0 hs =>
          rw [hh] at e0
          simp only [M.bind] at e0
          have tail : ∀ s1 : Eng, s1.peerEnc = true →
              insertHandshakeTail env (r :: rs') h0 r.rcd.epoch s1 = (.ok (), s1) := by
            intro s1 g
            unfold insertHandshakeTail
            rw [hr1]
            simp [g]
          unfold maybeResend at e0
          split at e0
          · split at e0
            · rename_i hc
              refine .resend ?_ hc.2 ⟨sl, hr5, rest, _, hr6, hr1⟩
              rw [e0]
              obtain ⟨_, _, _, _, _, _, _, hf⟩ := flightResend_frame env s
              cases hfr : flightResend env s with
              | mk o s1 =>
                cases o with
                | fail f => rfl
                | ok a =>
                  rw [hfr] at hf
                  simp only [M.andThen]
                  have : s1 = (Res.ok a, s1).2 := rfl
                  rw [tail s1 (by rw [this, hf]; exact hp)]
            · simp only [M.andThen] at e0
              rw [tail s hp] at e0
              exact .dropped e0
          · simp only [M.andThen] at e0
            rw [tail s hp] at e0
            exact .dropped e0
  · rw [h] at e0; exact .transient e0
  · rw [h] at e0; exact .crypto e0 hr
  · rw [h] at e0; exact .panic e0 hr

/-! ## Lengths of keys and IVs -/

/-- The suites have explicit nonces of 0 or 8 bytes, the shortest record holds the explicit nonce, and the
derived IVs have the length that is left of the nonce. -/
structure SuiteSane (env : Env) : Prop where
  params : ∀ cs e m, env.suiteParams cs = some (e, m) → (e = 0 ∨ e = 8) ∧ e ≤ m
  iv : ∀ cs e m ms cr sr k, env.suiteParams cs = some (e, m) → env.deriveKeys cs ms cr sr = some k →
    k.clientIv.length + e = 12 ∧ k.serverIv.length + e = 12

/-- The engine part of the argument. -/
structure SaneInv (env : Env) (s : Eng) : Prop where
  unset : s.suite = none → s.explicitLen = 0 ∧ s.keys = none
  set : ∀ cs, s.suite = some cs → env.suiteParams cs = some (s.explicitLen, s.minProt)
  iv : ∀ k, s.keys = some k → k.clientIv.length + s.explicitLen = 12 ∧ k.serverIv.length + s.explicitLen = 12
  enc : s.peerEnc = true → s.keys ≠ none

theorem SendFrame.peerEnc {s s' : Eng} (h : SendFrame s s') : s'.peerEnc = s.peerEnc := by
  obtain ⟨_, _, _, _, _, _, _, rfl⟩ := h; rfl

theorem Core.peerEnc {env : Env} {ok : Bytes → Prop} {s s' : Eng} (h : Core env ok s s') :
    s'.peerEnc = s.peerEnc ∨ s.keys ≠ none := by
  cases h with
  | packet p =>
    obtain ⟨_, _, _, _, _, _, _, _, _, _, _, _, h⟩ := parsePacket_arrive env p s
    rw [h]; exact .inl rfl
  | enablePeer hk => exact .inr hk
  | record c e sv fo f h hk =>
    obtain ⟨_, _, _, _, _, _, _, h⟩ := createRecord_frame env c e sv fo f s
    rw [h]; exact .inl rfl
  | handshake t b hk =>
    left
    unfold createHandshake
    dsimp only
    split
    · rfl
    split
    · rfl
    · exact (fragmentLoop_frame ..).peerEnc
  | timeout now =>
    left
    unfold handleTimeout
    dsimp only
    split
    · rfl
    · rfl
    · exact (flightResend_frame ..).peerEnc
    · rfl
  | nextHandshake t =>
    left
    unfold E12.nextHandshake defragment
    dsimp only
    repeat' split
    all_goals rfl
  | nextRecord c =>
    left
    unfold E12.nextRecord
    repeat' split
    all_goals rfl
  | poll n now =>
    left
    unfold pollOutput pollRest
    dsimp only
    repeat' split
    all_goals rfl
  | _ => exact .inl rfl

theorem SaneInv.step {env : Env} (hs : SuiteSane env) {ok : Bytes → Prop} {s s' : Eng} (h : Step env ok s s')
    (hi : SaneInv env s) : SaneInv env s' := by
  cases h with
  | core g =>
    have k := g.keep
    refine ⟨?_, ?_, ?_, ?_⟩
    · rw [k.suite, k.explicitLen, k.keys]; exact hi.unset
    · rw [k.suite, k.explicitLen, k.minProt]; exact hi.set
    · rw [k.explicitLen, k.keys]; exact hi.iv
    · rw [k.keys]
      rcases g.peerEnc with g | g
      · rw [g]; exact hi.enc
      · exact fun _ => g
  | suite cs g =>
    unfold setCipherSuite
    split
    · exact hi
    · rename_i e m he
      refine ⟨nofun, ?_, ?_, hi.enc⟩
      · rintro _ ⟨⟩; exact he
      · intro k hk; rw [show s.keys = _ from hk] at g; cases g
  | keys k g hk =>
    obtain ⟨cs, m, cr, sr, h1, h2⟩ := hk
    refine ⟨?_, hi.set, ?_, nofun⟩
    · intro h; rw [show s.suite = _ from h] at h1; cases h1
    · rintro _ ⟨⟩; exact hs.iv cs _ _ m cr sr k (hi.set cs h1) h2

theorem SaneInv.keySane {env : Env} (hs : SuiteSane env) {s : Eng} (hi : SaneInv env s) (hk : s.keys ≠ none) :
    KeySane s := by
  cases hc : s.suite with
  | none => exact absurd (hi.unset hc).2 hk
  | some cs =>
    have := hs.params cs _ _ (hi.set cs hc)
    exact ⟨this.1, this.2, hi.iv⟩

theorem Start.saneInv {R : Role} {env : PEnv} {cfg : Cfg} {s0 : Ses R.St} (h : Start env cfg R s0)
    (hs : SuiteSane env.toEnv) (cs : List Call) : SaneInv env.toEnv (run R env s0 cs).2.eng := by
  refine Star.invariant (R := Step env.toEnv fun _ => True) (fun _ _ h => SaneInv.step hs h) (h.steps' cs) ?_
  cases h <;> exact ⟨fun _ => ⟨rfl, rfl⟩, nofun, nofun, nofun⟩

end Verif.E12

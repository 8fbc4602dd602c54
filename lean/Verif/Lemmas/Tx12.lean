import Verif.Lemmas.Steps12
import Verif.Props.Kdf
/-!
# Invariants of the DTLS 1.2 transmit side
-/
namespace Verif.E12
open Verif Wire Window Timer Aead M

/-- Length of a record on the wire. -/
def wireLen (s : Eng) (e : Nat) (f : Bytes) : Nat := 13 + f.length + s.overhead e

/-- There is room for a record. -/
def hasRoom (s : Eng) (fo : Bool) (w : Nat) : Prop :=
  canAppend s fo w = true ∨ s.tx.length < s.cfg.maxTx

/-- The engine after a record was sealed, before it is queued. -/
def sealedState (s : Eng) (key nonce : Bytes) (c : UInt8) : Eng :=
  { s with tick := s.tick + 1, log := .sealed key nonce c 1 s.seqN :: s.log }

/-- Everything `create_record_inner` can do. -/
theorem createRecord_ind {motive : Res Unit × Eng → Prop} (env : Env) (c : UInt8) (e : Nat)
    (sv fo : Bool) (f : Bytes) (s : Eng)
    (noSuite : e ≥ 1 → s.suite = none → motive (.fail (.fatal .invalidState), s))
    (full : (e ≥ 1 → s.suite ≠ none) → ¬ hasRoom s fo (wireLen s e f) →
      motive (.fail (.fatal .transmitQueueFull), saveEntry s sv ⟨c, e, f⟩))
    (bad : e ≥ 1 → ∀ t flt, s.tick ≤ t → (flt = .fatal .crypto ∨ flt = .panic) →
      motive (.fail flt, { saveEntry s sv ⟨c, e, f⟩ with tick := t }))
    (plain : e = 0 → hasRoom s fo (wireLen s e f) →
      motive (.ok (), emitRecord (saveEntry s sv ⟨c, e, f⟩) c 0 (canAppend s fo (wireLen s e f)) f f))
    (sealed : e ≥ 1 → s.suite ≠ none → hasRoom s fo (wireLen s e f) → ∀ key iv nonce ct,
      s.writeKey = some (key, iv) → (s.explicitLen = 0 ∨ s.explicitLen = 8) →
      recordNonce s.explicitLen iv (explicitNonce env s) 1 s.seqN = some nonce →
      env.enc key nonce (aad12 c 1 s.seqN (f.length % 65536)) f = some ct →
      motive (.ok (), emitRecord (sealedState (saveEntry s sv ⟨c, e, f⟩) key nonce c) c 1
        (canAppend s fo (wireLen s e f)) f (explicitNonce env s ++ ct))) :
    motive (createRecord env c e sv fo f s) := by
  unfold createRecord
  split
  · rename_i h; exact noSuite h.1 h.2
  · rename_i hs
    have hs : e ≥ 1 → s.suite ≠ none := fun h1 h2 => hs ⟨h1, h2⟩
    obtain ⟨sav, hsav⟩ : ∃ sav, saveEntry s sv ⟨c, e, f⟩ = { s with saved := sav } := by
      unfold saveEntry
      split
      · exact ⟨_, rfl⟩
      · exact ⟨s.saved, rfl⟩
    have hca : canAppend (saveEntry s sv ⟨c, e, f⟩) fo (13 + f.length +
        (saveEntry s sv ⟨c, e, f⟩).overhead e) = canAppend s fo (wireLen s e f) := by
      rw [hsav]; rfl
    dsimp only
    rw [hca]
    split
    · rename_i h
      refine full hs ?_
      rintro (h' | h')
      · simp [h'] at h
      · rw [hsav] at h
        simp at h
        omega
    · rename_i h
      have hroom : hasRoom s fo (wireLen s e f) := by
        unfold hasRoom
        rw [hsav] at h
        simp at h
        cases hc : canAppend s fo (wireLen s e f)
        · exact .inr (h hc)
        · exact .inl rfl
      split
      · rename_i h1
        have b := bad h1
        have sl := sealed h1 (hs h1) hroom
        rw [hsav] at b sl ⊢
        unfold sealRecord
        have hw : Eng.writeKey { s with saved := sav } = s.writeKey := rfl
        have hx : explicitNonce env { s with saved := sav } = explicitNonce env s := rfl
        rw [hw, hx]
        split
        · exact b _ _ (Nat.le_refl _) (by simp)
        · split
          · exact b s.tick _ (Nat.le_refl _) (by simp)
          · rename_i hwk hel
            have hel : s.explicitLen = 0 ∨ s.explicitLen = 8 := by
              dsimp only at hel
              omega
            dsimp only
            split
            · exact b _ _ (Nat.le_succ _) (by simp)
            · split
              · exact b _ _ (Nat.le_succ _) (by simp)
              · exact sl _ _ _ _ hwk hel ‹_› ‹_›
      · rename_i h1
        exact plain (by omega) hroom

/-- An invariant of the transmit side that does not depend on what is saved. -/
structure TxInv (env : Env) (I : Eng → Prop) : Prop where
  same : ∀ s s', TxSame s s' → I s → I s'
  record : ∀ s c e sv fo f, I s → I (createRecord env c e sv fo f s).2
  clear : ∀ s, I s → I { s with tx := [] }
  saved : ∀ s l, I s → I { s with saved := l }
  sent : ∀ s p rest, s.tx = p :: rest → I s → I { s with tx := rest, log := .sent p :: s.log }
  suite : ∀ s cs e m, s.keys = none → env.suiteParams cs = some (e, m) → I s →
    I { s with explicitLen := e, minProt := m, suite := some cs }
  keys : ∀ s k, s.keys = none → I s → I { s with keys := some k }

theorem resendLoop_inv {env : Env} {I : Eng → Prop} {P : Entry → Prop}
    (h : ∀ s fo en, P en → I s → I (createRecord env en.ctype en.epoch false fo en.fragment s).2)
    (l : List Entry) (hl : ∀ en ∈ l, P en) (fo : Bool) (s : Eng) (hs : I s) :
    I (resendLoop env l fo s).2 := by
  induction l generalizing fo s with
  | nil => exact hs
  | cons en rest ih =>
    unfold resendLoop
    rw [bind_snd]
    have h1 := h s fo en (hl en (by simp)) hs
    split
    · exact ih (fun x hx => hl x (by simp [hx])) _ _ h1
    · exact h1

theorem TxInv.resend {env : Env} {I : Eng → Prop} (h : TxInv env I) (s : Eng) (hs : I s) :
    I (flightResend env s).2 := by
  unfold flightResend
  dsimp only
  refine h.saved _ _ (resendLoop_inv (P := fun _ => True) (fun s fo en _ => h.record s _ _ _ _ _) _
    (fun _ _ => trivial) _ _ ?_)
  split
  · exact h.saved _ _ hs
  · exact h.saved _ _ (h.clear _ hs)

theorem TxInv.step {env : Env} {I : Eng → Prop} {ok : Bytes → Prop} (h : TxInv env I) {s s' : Eng}
    (hstep : TStep env ok s s') (hs : I s) : I s' := by
  cases hstep with
  | prim hp =>
    cases hp with
    | same g => exact h.same _ _ g hs
    | record c e sv fo f _ _ => exact h.record _ _ _ _ _ _ hs
    | fragment t q b off _ _ => exact h.record _ _ _ _ _ _ hs
    | resend => exact h.resend _ hs
    | clear => exact h.clear _ hs
    | forget => exact h.saved _ _ hs
    | sent p rest g => exact h.sent _ _ _ g hs
  | suite cs e m g1 g2 => exact h.suite _ _ _ _ g1 g2 hs
  | keys k g => exact h.keys _ _ g hs

theorem TxInv.steps {env : Env} {I : Eng → Prop} {ok : Bytes → Prop} (h : TxInv env I) {s s' : Eng}
    (hst : Steps env ok s s') (hs : I s) : I s' :=
  Star.invariant (R := TStep env ok) (fun _ _ g => h.step g) hst.prims hs

/-! ## Queue length -/

theorem pushWire_length (tx : List Bytes) (a : Bool) (b : Bytes) (ha : a = true → tx ≠ []) :
    (pushWire tx a b).length = if a then tx.length else tx.length + 1 := by
  unfold pushWire
  split
  · have := ha ‹_›
    cases tx with
    | nil => exact absurd rfl this
    | cons x xs => simp
  · simp

theorem canAppend_ne {s : Eng} {fo : Bool} {w : Nat} (h : canAppend s fo w = true) : s.tx ≠ [] := by
  intro hn
  simp [canAppend, hn] at h

theorem canAppend_fits {s : Eng} {fo : Bool} {w : Nat} (h : canAppend s fo w = true) :
    ∃ b, s.tx.getLast? = some b ∧ b.length + w ≤ s.cfg.mtu := by
  unfold canAppend at h
  split at h
  · exact ⟨_, ‹_›, by simp at h; exact h.2⟩
  · simp at h

theorem txLen_inv (env : Env) : TxInv env fun s => s.tx.length ≤ s.cfg.maxTx where
  same s s' h hs := by
    obtain ⟨_, _, _, _, _, _, _, _, _, _, _, _, _, _, _, _, rfl⟩ := h
    exact hs
  record s c e sv fo f hs := by
    have hsv : ∀ en, (saveEntry s sv en).tx = s.tx ∧ (saveEntry s sv en).cfg = s.cfg := fun en => by
      unfold saveEntry; split <;> exact ⟨rfl, rfl⟩
    have hpush : ∀ b, hasRoom s fo (wireLen s e f) →
        (pushWire s.tx (canAppend s fo (wireLen s e f)) b).length ≤ s.cfg.maxTx := by
      intro b hr
      rw [pushWire_length _ _ _ canAppend_ne]
      split
      · exact hs
      · rcases hr with h | h
        · contradiction
        · exact h
    refine createRecord_ind (motive := fun r => r.2.tx.length ≤ r.2.cfg.maxTx) env c e sv fo f s
      (fun _ _ => hs) (fun _ _ => ?_) (fun _ _ _ _ _ => ?_) (fun _ hr => ?_)
      (fun _ _ hr _ _ _ _ _ _ _ _ => ?_)
    · simp only [(hsv _).1, (hsv _).2]; exact hs
    · simp only [(hsv _).1, (hsv _).2]; exact hs
    · simp only [emitRecord, (hsv _).1, (hsv _).2]; exact hpush _ hr
    · simp only [emitRecord, sealedState, (hsv _).1, (hsv _).2]; exact hpush _ hr
  clear s hs := by simp
  saved s l hs := hs
  sent s p rest h hs := by simp [h] at hs ⊢; omega
  suite s cs e m _ _ hs := hs
  keys s k _ hs := hs

/-! ## Record numbers -/

/-- Epoch and number of the records queued so far, newest first. -/
def numbers : List Ev → List (Nat × Nat)
  | [] => []
  | .queued _ e q _ :: l => (e, q) :: numbers l
  | _ :: l => numbers l

theorem numbers_append (es l : List Ev) (h : ∀ e ∈ es, Ev.isTx e = false) :
    numbers (es ++ l) = numbers l := by
  induction es with
  | nil => rfl
  | cons e es ih =>
    have h1 := h e (by simp)
    have h2 := ih fun x hx => h x (by simp [hx])
    cases e <;> simp [Ev.isTx] at h1 <;> simpa [numbers] using h2

/-- Every number in use is below the counter of its epoch, and none is used twice. -/
def FreshInv (s : Eng) : Prop :=
  (∀ p ∈ numbers s.log, (p.1 = 0 ∧ p.2 < s.seq0) ∨ (p.1 = 1 ∧ p.2 < s.seqN)) ∧ (numbers s.log).Nodup

theorem fresh_inv (env : Env) : TxInv env FreshInv where
  same s s' h hs := by
    obtain ⟨_, _, _, _, _, _, _, _, _, _, _, _, _, es, _, he, rfl⟩ := h
    unfold FreshInv at *
    simp only [numbers_append es _ he]
    exact hs
  record s c e sv fo f hs := by
    obtain ⟨h1, h2⟩ := hs
    have hsv : ∀ en, (saveEntry s sv en).seq0 = s.seq0 ∧ (saveEntry s sv en).seqN = s.seqN ∧
        (saveEntry s sv en).log = s.log := fun en => by
      unfold saveEntry; split <;> exact ⟨rfl, rfl, rfl⟩
    refine createRecord_ind (motive := fun r => FreshInv r.2) env c e sv fo f s
      (fun _ _ => ⟨h1, h2⟩) (fun _ _ => ?_) (fun _ _ _ _ _ => ?_) (fun _ hr => ?_)
      (fun _ _ hr _ _ _ _ _ _ _ _ => ?_)
    · simp only [FreshInv, hsv]; exact ⟨h1, h2⟩
    · simp only [FreshInv, hsv]; exact ⟨h1, h2⟩
    · simp only [FreshInv, emitRecord, hsv, numbers, if_true]
      refine ⟨?_, List.nodup_cons.mpr ⟨?_, h2⟩⟩
      · intro p hp
        rcases List.mem_cons.mp hp with rfl | hp
        · simp
        · rcases h1 p hp with h | h
          · exact .inl ⟨h.1, by omega⟩
          · exact .inr h
      · intro hm
        have := h1 _ hm
        simp at this
    · simp only [FreshInv, emitRecord, sealedState, hsv, numbers, Nat.one_ne_zero, if_false]
      refine ⟨?_, List.nodup_cons.mpr ⟨?_, h2⟩⟩
      · intro p hp
        rcases List.mem_cons.mp hp with rfl | hp
        · simp
        · rcases h1 p hp with h | h
          · exact .inl h
          · exact .inr ⟨h.1, by omega⟩
      · intro hm
        have := h1 _ hm
        simp at this
  clear s hs := hs
  saved s l hs := hs
  sent s p rest h hs := hs
  suite s cs e m _ _ hs := hs
  keys s k _ hs := hs

/-! ## Nonces -/

/-- Key and nonce of the records sealed so far, newest first. -/
def nonces : List Ev → List (Bytes × Bytes)
  | [] => []
  | .sealed k n _ _ _ :: l => (k, n) :: nonces l
  | _ :: l => nonces l

theorem nonces_append (es l : List Ev) (h : ∀ e ∈ es, Ev.isTx e = false) :
    nonces (es ++ l) = nonces l := by
  induction es with
  | nil => rfl
  | cons e es ih =>
    have h1 := h e (by simp)
    have h2 := ih fun x hx => h x (by simp [hx])
    cases e <;> simp [Ev.isTx] at h1 <;> simpa [nonces] using h2

/-- The random 8-byte strings drawn before time `n` differ. -/
def RandFresh (env : Env) (n : Nat) : Prop :=
  ∀ i j, i < n → j < n → env.rand i 8 = env.rand j 8 → i = j

theorem RandFresh.mono {env : Env} {n m : Nat} (h : RandFresh env m) (hn : n ≤ m) : RandFresh env n :=
  fun i j hi hj => h i j (by omega) (by omega)

/-- Where a nonce can come from. -/
def NonceOf (env : Env) (s : Eng) (key n : Bytes) : Prop :=
  ∃ iv, s.writeKey = some (key, iv) ∧
    ((s.explicitLen = 0 ∧ ∃ q < s.seqN, recordNonce 0 iv [] 1 q = some n) ∨
     (s.explicitLen = 8 ∧ ∃ t < s.tick, nonceNew iv (env.rand t 8) = some n))

/-- No nonce repeats while the counter is below `2^48` and, with explicit nonces, the random numbers
differ. -/
def NonceInv (env : Env) (s : Eng) : Prop :=
  (∀ p ∈ nonces s.log, NonceOf env s p.1 p.2) ∧
  (s.seqN ≤ 2 ^ 48 → (s.explicitLen = 8 → RandFresh env s.tick) → (nonces s.log).Nodup)

theorem NonceOf.mono {env : Env} {s s' : Eng} {k n : Bytes} (h : NonceOf env s k n)
    (h1 : s'.writeKey = s.writeKey) (h2 : s'.explicitLen = s.explicitLen) (h3 : s.seqN ≤ s'.seqN)
    (h4 : s.tick ≤ s'.tick) : NonceOf env s' k n := by
  obtain ⟨iv, hw, h⟩ := h
  refine ⟨iv, h1.trans hw, ?_⟩
  rcases h with ⟨he, q, hq, hn⟩ | ⟨he, t, ht, hn⟩
  · exact .inl ⟨h2.trans he, q, by omega, hn⟩
  · exact .inr ⟨h2.trans he, t, by omega, hn⟩

theorem recordNonce_inj {iv n : Bytes} {q q' : Nat} (hq : q < 2 ^ 48) (hq' : q' < 2 ^ 48)
    (h : recordNonce 0 iv [] 1 q = some n) (h' : recordNonce 0 iv [] 1 q' = some n) : q = q' := by
  unfold recordNonce at h h'
  simp only [if_true] at h h'
  split at h
  · rename_i hl
    rw [if_pos hl] at h'
    rw [← h'] at h
    have := Props.Kdf.nonce_xor_injective iv (seq64 1 q) (seq64 1 q') hl
      (Nat.mod_lt _ (by decide)) (Nat.mod_lt _ (by decide)) (by simpa using h)
    exact (Props.Kdf.seq64_injective 1 q 1 q' (by decide) (by decide) hq hq' this).2
  · simp at h

theorem nonce_inv (env : Env) : TxInv env (NonceInv env) where
  same s s' h hs := by
    obtain ⟨_, _, _, _, _, _, _, _, _, _, _, _, t, es, ht, he, rfl⟩ := h
    refine ⟨?_, ?_⟩
    · intro p hp
      simp only [nonces_append es _ he] at hp
      exact (hs.1 p hp).mono rfl rfl (Nat.le_refl _) ht
    · simp only [nonces_append es _ he]
      exact fun g1 g2 => hs.2 g1 fun g3 => (g2 g3).mono ht
  record s c e sv fo f hs := by
    obtain ⟨h1, h2⟩ := hs
    obtain ⟨sav, hsav⟩ : ∃ sav, saveEntry s sv ⟨c, e, f⟩ = { s with saved := sav } := by
      unfold saveEntry
      split
      · exact ⟨_, rfl⟩
      · exact ⟨s.saved, rfl⟩
    refine createRecord_ind (motive := fun r => NonceInv env r.2) env c e sv fo f s
      (fun _ _ => ⟨h1, h2⟩) (fun _ _ => ?_) (fun _ t _ ht _ => ?_) (fun _ _ => ?_)
      (fun _ _ _ key iv nonce ct hw he hn _ => ?_)
    · rw [hsav]; exact ⟨h1, h2⟩
    · rw [hsav]
      exact ⟨fun p hp => (h1 p hp).mono rfl rfl (Nat.le_refl _) ht,
        fun g1 g2 => h2 g1 fun g3 => (g2 g3).mono ht⟩
    · rw [hsav]; exact ⟨h1, h2⟩
    · rw [hsav]
      have hold : ∀ p ∈ nonces s.log, NonceOf env (emitRecord (sealedState { s with saved := sav } key
          nonce c) c 1 (canAppend s fo (wireLen s e f)) f (explicitNonce env s ++ ct)) p.1 p.2 := by
        intro p hp
        exact (h1 p hp).mono rfl rfl (Nat.le_succ _) (Nat.le_succ _)
      have hnew : NonceOf env (emitRecord (sealedState { s with saved := sav } key
          nonce c) c 1 (canAppend s fo (wireLen s e f)) f (explicitNonce env s ++ ct)) key nonce := by
        refine ⟨iv, hw, ?_⟩
        rcases he with he | he
        · refine .inl ⟨he, s.seqN, Nat.lt_succ_self _, ?_⟩
          rw [he] at hn
          simpa [recordNonce] using hn
        · refine .inr ⟨he, s.tick, Nat.lt_succ_self _, ?_⟩
          simpa [recordNonce, explicitNonce, he] using hn
      refine ⟨?_, ?_⟩
      · intro p hp
        rcases List.mem_cons.mp (by simpa [emitRecord, sealedState, nonces] using hp) with rfl | hp
        · exact hnew
        · exact hold p hp
      · intro hlt hr
        have hr : s.explicitLen = 8 → RandFresh env (s.tick + 1) := hr
        have hlt : s.seqN + 1 ≤ 2 ^ 48 := by simpa [emitRecord, sealedState] using hlt
        show ((key, nonce) :: nonces s.log).Nodup
        refine List.nodup_cons.mpr ⟨?_, h2 (by omega) fun g => (hr g).mono (by omega)⟩
        intro hm
        obtain ⟨iv', hw', hm⟩ := h1 _ hm
        have : iv = iv' := by
          rw [hw] at hw'
          simpa using hw'
        subst this
        rcases hm with ⟨he', q, hq, hn'⟩ | ⟨he', t, ht, hn'⟩
        · rw [he'] at hn
          have hn : recordNonce 0 iv [] 1 s.seqN = some nonce := by simpa [recordNonce] using hn
          have := recordNonce_inj (by omega) (by omega) hn hn'
          omega
        · have hn : nonceNew iv (env.rand s.tick 8) = some nonce := by
            simpa [recordNonce, explicitNonce, he'] using hn
          unfold nonceNew at hn hn'
          split at hn <;> split at hn'
          · rw [← hn'] at hn
            have := hr he' s.tick t (by omega) (by omega) (by simpa using hn)
            omega
          all_goals simp_all
  clear s hs := hs
  saved s l hs := hs
  sent s p rest h hs := hs
  suite s cs e m hk _ hs := by
    have : nonces s.log = [] := List.eq_nil_iff_forall_not_mem.mpr fun p hp => by
      obtain ⟨iv, hw, _⟩ := hs.1 p hp
      simp [Eng.writeKey, hk] at hw
    refine ⟨?_, ?_⟩
    · simp only [this]; nofun
    · simp [this]
  keys s k hk hs := by
    refine ⟨?_, hs.2⟩
    intro p hp
    obtain ⟨iv, hw, _⟩ := hs.1 p hp
    simp [Eng.writeKey, hk] at hw

/-! ## Datagram size -/

theorem serialize12_length (r : Rec12) : (serialize12 r).length = 13 + r.fragment.length := by
  simp [serialize12, beBytes_length]
  omega

theorem hsFragment_length (t : UInt8) (q : Nat) (b : Bytes) (off n : Nat) :
    (hsFragment t q b off n).length ≤ 12 + n := by
  simp [hsFragment, serializeHs, serializeHsHeader, beBytes_length]
  omega

theorem chunkLen_le (s : Eng) (p total off : Nat) (h : 25 + p ≤ s.cfg.mtu) :
    25 + p + chunkLen s p total off ≤ s.cfg.mtu := by
  unfold chunkLen
  dsimp only
  split
  · omega
  · split
    · rename_i h1 h2
      have := Nat.min_le_right (total - off)
        (s.cfg.mtu - (s.tx.getLast?.map List.length).getD 0 - (13 + 12 + p))
      omega
    · have := Nat.min_le_right (total - off) (s.cfg.mtu - (13 + 12 + p))
      omega

/-- The AEAD adds `tag` bytes, explicit nonces have the length asked for, and the suites' overhead is
what the provider says, at most `M`. -/
structure Sizes (env : Env) (tag M : Nat) : Prop where
  enc : ∀ k n a p c, env.enc k n a p = some c → c.length = p.length + tag
  rand : ∀ i n, (env.rand i n).length = n
  suite : ∀ cs e m, env.suiteParams cs = some (e, m) → m = e + tag ∧ m ≤ M

/-- Nothing queued, saved or sent exceeds the MTU. -/
structure SizeInv (tag M : Nat) (s : Eng) : Prop where
  mtu : 25 + M ≤ s.cfg.mtu
  tx : ∀ b ∈ s.tx, b.length ≤ s.cfg.mtu
  saved : ∀ e ∈ s.saved, wireLen s e.epoch e.fragment ≤ s.cfg.mtu ∧ (e.epoch ≥ 1 → s.keys ≠ none)
  prot : s.minProt ≤ M
  suite : s.suite ≠ none → s.minProt = s.explicitLen + tag
  sent : ∀ p, Ev.sent p ∈ s.log → p.length ≤ s.cfg.mtu

theorem pushWire_le {s : Eng} {tx : List Bytes} {fo : Bool} {w n : Nat} {b : Bytes}
    (htx : ∀ x ∈ s.tx, x.length ≤ s.cfg.mtu) (hn : b.length = w) (hw : w ≤ s.cfg.mtu)
    (he : tx = s.tx) (hm : n = s.cfg.mtu) :
    ∀ x ∈ pushWire tx (canAppend s fo w) b, x.length ≤ n := by
  subst he hm
  intro x hx
  unfold pushWire at hx
  split at hx
  · rename_i h
    obtain ⟨l, hl, hle⟩ := canAppend_fits h
    rw [hl] at hx
    rcases List.mem_append.mp hx with h | h
    · exact htx x ((List.dropLast_sublist _).subset h)
    · simp at h
      subst h
      simp
      omega
  · rcases List.mem_append.mp hx with h | h
    · exact htx x h
    · simp at h
      subst h
      omega

theorem size_record {env : Env} {tag M : Nat} (hz : Sizes env tag M) (s : Eng) (c : UInt8) (e : Nat)
    (sv fo : Bool) (f : Bytes) (hf : wireLen s e f ≤ s.cfg.mtu)
    (hk : sv = true → e ≥ 1 → s.keys ≠ none) (hs : SizeInv tag M s) :
    SizeInv tag M (createRecord env c e sv fo f s).2 := by
  obtain ⟨sav, hsav, hsaved⟩ : ∃ sav, saveEntry s sv ⟨c, e, f⟩ = { s with saved := sav } ∧
      ∀ x ∈ sav, wireLen s x.epoch x.fragment ≤ s.cfg.mtu ∧ (x.epoch ≥ 1 → s.keys ≠ none) := by
    unfold saveEntry
    split
    · refine ⟨_, rfl, ?_⟩
      intro x hx
      rcases List.mem_append.mp hx with h | h
      · exact hs.saved x h
      · simp at h
        subst h
        exact ⟨hf, hk ‹_›⟩
    · exact ⟨s.saved, rfl, hs.saved⟩
  refine createRecord_ind (motive := fun r => SizeInv tag M r.2) env c e sv fo f s
    (fun _ _ => hs) (fun _ _ => ?_) (fun _ t _ ht _ => ?_) (fun h0 _ => ?_)
    (fun h1 hsu _ key iv nonce ct _ hel _ henc => ?_)
  · rw [hsav]
    exact ⟨hs.mtu, hs.tx, hsaved, hs.prot, hs.suite, hs.sent⟩
  · rw [hsav]
    exact ⟨hs.mtu, hs.tx, hsaved, hs.prot, hs.suite, hs.sent⟩
  · rw [hsav]
    refine ⟨hs.mtu, ?_, hsaved, hs.prot, hs.suite, ?_⟩
    · simp only [emitRecord]
      refine pushWire_le hs.tx ?_ hf rfl rfl
      rw [serialize12_length]
      simp [wireLen, Eng.overhead, h0]
    · intro p hp
      exact hs.sent p (by simpa [emitRecord] using hp)
  · rw [hsav]
    refine ⟨hs.mtu, ?_, hsaved, hs.prot, hs.suite, ?_⟩
    · simp only [emitRecord, sealedState]
      refine pushWire_le hs.tx ?_ hf rfl rfl
      rw [serialize12_length]
      have := hz.enc _ _ _ _ _ henc
      have := hs.suite hsu
      have hx : (explicitNonce env s).length = s.explicitLen := by
        unfold explicitNonce
        split
        · rw [hz.rand]; omega
        · simp; omega
      simp [wireLen, Eng.overhead, h1]
      omega
    · intro p hp
      exact hs.sent p (by simpa [emitRecord, sealedState] using hp)

theorem SizeInv.step {env : Env} {tag M : Nat} (hz : Sizes env tag M) {ok : Bytes → Prop} {mtu : Nat}
    (hok : ∀ f, ok f → 13 + f.length + M ≤ mtu) {s s' : Eng} (h : TStep env ok s s')
    (hs : s.cfg.mtu = mtu ∧ SizeInv tag M s) : s'.cfg.mtu = mtu ∧ SizeInv tag M s' := by
  obtain ⟨rfl, hs⟩ := hs
  have hov : ∀ (s : Eng), SizeInv tag M s → ∀ e, s.overhead e ≤ M := by
    intro s hs e
    unfold Eng.overhead
    have := hs.prot
    split <;> omega
  cases h with
  | prim hp =>
    refine ⟨by rw [hp.keep.cfg], ?_⟩
    cases hp with
    | same g =>
      obtain ⟨_, _, _, _, _, _, _, _, _, _, _, _, _, es, _, he, rfl⟩ := g
      refine ⟨hs.mtu, hs.tx, hs.saved, hs.prot, hs.suite, ?_⟩
      intro p hp
      rcases List.mem_append.mp hp with h | h
      · have := he _ h
        simp [Ev.isTx] at this
      · exact hs.sent p h
    | record c e sv fo f hf hk =>
      refine size_record hz _ _ _ _ _ _ ?_ (fun _ => hk) hs
      have := hok f hf
      have := hov s hs e
      unfold wireLen
      omega
    | fragment t q b off _ hk =>
      refine size_record hz _ _ _ _ _ _ ?_ (fun _ => hk) hs
      have h1 := hov s hs (msgEpoch t)
      have h2 := hs.mtu
      have h3 := chunkLen_le s (s.overhead (msgEpoch t)) b.length off (by omega)
      have h4 := hsFragment_length t q b off (chunkLen s (s.overhead (msgEpoch t)) b.length off)
      unfold wireLen
      omega
    | resend =>
      unfold flightResend
      dsimp only
      have := resendLoop_inv (env := env) (I := fun u => SizeInv tag M u ∧ Keep s u)
        (P := fun en => wireLen s en.epoch en.fragment ≤ s.cfg.mtu ∧ (en.epoch ≥ 1 → s.keys ≠ none))
        (fun u fo en hP hu => ⟨size_record hz u _ _ _ _ _
            (by simpa [wireLen, Eng.overhead, hu.2.minProt, hu.2.cfg] using hP.1) (by simp) hu.1,
          hu.2.trans (createRecord_frame ..).keep⟩)
        s.saved hs.saved (!s.release) { s with tx := if s.release then s.tx else [], saved := [] }
        ⟨⟨hs.mtu, ?_, by simp, hs.prot, hs.suite, hs.sent⟩, ⟨rfl, rfl, rfl, rfl, rfl, rfl⟩⟩
      · obtain ⟨hu, hkeep⟩ := this
        refine ⟨hu.mtu, hu.tx, ?_, hu.prot, hu.suite, hu.sent⟩
        intro x hx
        have := hs.saved x hx
        simp only [wireLen, Eng.overhead, hkeep.minProt, hkeep.cfg, hkeep.keys]
        exact this
      · dsimp only
        split
        · exact hs.tx
        · simp
    | clear => exact ⟨hs.mtu, by simp, hs.saved, hs.prot, hs.suite, hs.sent⟩
    | forget => exact ⟨hs.mtu, hs.tx, by simp, hs.prot, hs.suite, hs.sent⟩
    | sent p rest g =>
      refine ⟨hs.mtu, fun b hb => hs.tx b (by simp [g, hb]), hs.saved, hs.prot, hs.suite, ?_⟩
      intro b hb
      rcases List.mem_cons.mp hb with h | h
      · injection h with h
        subst h
        exact hs.tx b (by simp [g])
      · exact hs.sent b h
  | suite cs e m hk hp =>
    have hm := hz.suite _ _ _ hp
    refine ⟨rfl, hs.mtu, hs.tx, ?_, hm.2, fun _ => hm.1, hs.sent⟩
    intro x hx
    have := hs.saved x hx
    refine ⟨?_, this.2⟩
    have h0 : ¬ x.epoch ≥ 1 := fun h => this.2 h hk
    simpa [wireLen, Eng.overhead, h0] using this.1
  | keys k hk =>
    exact ⟨rfl, hs.mtu, hs.tx, fun x hx => ⟨(hs.saved x hx).1, by simp⟩, hs.prot, hs.suite, hs.sent⟩

theorem SizeInv.steps {env : Env} {tag M : Nat} (hz : Sizes env tag M) {ok : Bytes → Prop} {s s' : Eng}
    (hok : ∀ f, ok f → 13 + f.length + M ≤ s.cfg.mtu)
    (hst : Steps env ok s s') (hs : SizeInv tag M s) : s'.cfg.mtu = s.cfg.mtu ∧ SizeInv tag M s' :=
  Star.invariant (R := TStep env ok) (fun _ _ g => SizeInv.step hz hok g) hst.prims ⟨rfl, hs⟩

end Verif.E12

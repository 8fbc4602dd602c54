import Verif.Lemmas.Monad
import Verif.Model.Engine13
/-!
# What the record functions of the DTLS 1.3 engine do
-/
namespace Verif.E13
open Verif Wire Window Timer Aead M

/-- The engine after `flight_saved_records.push`. -/
def savedAs (s : Eng) (sv : Bool) (en : Entry) : Eng :=
  { s with saved := if sv then s.saved ++ [en] else s.saved }

theorem saveEntry_eq (s : Eng) (sv : Bool) (en : Entry) :
    saveEntry s sv en = none ∧ sv = true ∧ s.saved.length ≥ 12 ∨
    saveEntry s sv en = some (savedAs s sv en) ∧ (sv = true → s.saved.length < 12) := by
  unfold saveEntry savedAs
  cases sv
  · exact .inr ⟨by simp, by simp⟩
  · by_cases h : s.saved.length ≥ 12
    · exact .inl ⟨by simp [h], rfl, h⟩
    · exact .inr ⟨by simp [h], fun _ => by omega⟩

/-- There is room for a record. -/
def hasRoom (s : Eng) (w : Nat) : Prop := canAppend s w = true ∨ s.tx.length < s.cfg.maxTx

theorem hasRoom_of {s : Eng} {w : Nat} (h : ¬ (!canAppend s w && decide (s.tx.length ≥ s.cfg.maxTx)) = true) :
    hasRoom s w := by
  unfold hasRoom
  cases hc : canAppend s w
  · right; simp [hc] at h; exact h
  · exact .inl rfl

/-- The entry of a record about to be sent. -/
def entryOf (s : Eng) (c : UInt8) (ep : Nat) (f : Bytes) : Entry :=
  { ctype := c, epoch := ep, sendSeq := s.slotSeq (s.slot ep), fragment := f, acked := false }

def plainEntry (s : Eng) (c : UInt8) (f : Bytes) : Entry :=
  { ctype := c, epoch := 0, sendSeq := s.seq0, fragment := f, acked := false }

/-- Everything `create_plaintext_record` can do. -/
theorem createPlain_ind {motive : Res Unit × Eng → Prop} (c : UInt8) (sv : Bool) (f : Bytes) (s : Eng)
    (over : sv = true → s.saved.length ≥ 12 → motive (.fail .panic, s))
    (stop : ∀ flt, (flt = .fatal .transmitQueueFull ∨ flt = .fatal .crypto) →
      (sv = true → s.saved.length < 12) → motive (.fail flt, savedAs s sv (plainEntry s c f)))
    (sent : (sv = true → s.saved.length < 12) → hasRoom s (13 + f.length) → s.seq0 < maxSeq →
      motive (.ok (), emitPlain (savedAs s sv (plainEntry s c f)) c (canAppend s (13 + f.length)) f)) :
    motive (createPlain c sv f s) := by
  unfold createPlain
  rcases saveEntry_eq s sv (plainEntry s c f) with ⟨h, h1, h2⟩ | ⟨h, h1⟩
  · unfold plainEntry at h
    rw [h]
    exact over h1 h2
  · unfold plainEntry at h
    rw [h]
    have hca : canAppend (savedAs s sv (plainEntry s c f)) (13 + f.length) = canAppend s (13 + f.length) := rfl
    dsimp only
    change motive (if (!canAppend (savedAs s sv (plainEntry s c f)) (13 + f.length) &&
        decide ((savedAs s sv (plainEntry s c f)).tx.length ≥ (savedAs s sv (plainEntry s c f)).cfg.maxTx)) = true
      then (.fail (.fatal .transmitQueueFull), savedAs s sv (plainEntry s c f)) else
      if s.seq0 ≥ maxSeq then (.fail (.fatal .crypto), savedAs s sv (plainEntry s c f)) else
      (.ok (), emitPlain (savedAs s sv (plainEntry s c f)) c
        (canAppend (savedAs s sv (plainEntry s c f)) (13 + f.length)) f))
    split
    · exact stop _ (.inl rfl) h1
    · rename_i hr
      split
      · exact stop _ (.inr rfl) h1
      · rw [hca]
        exact sent h1 (hasRoom_of hr) (by omega)

/-- The engine after a record was sealed, before it is queued. -/
def sealedSt (s : Eng) (k : Keys) (ep : Nat) : Eng :=
  { s with log := .sealed k (nonceXor k.iv (s.slotSeq (s.slot ep))) ep (s.slotSeq (s.slot ep)) :: s.log }

/-- What it takes to seal a record. -/
structure Seals (env : Env) (s : Eng) (c : UInt8) (ep : Nat) (f : Bytes) (suite tag : Nat) (k : Keys)
    (ct : Bytes) : Prop where
  hsuite : s.suite = some suite
  htag : env.suiteTag suite = some tag
  keys : s.slotKeys (s.slot ep) = some k
  enc : env.enc k.key (nonceXor k.iv (s.slotSeq (s.slot ep)))
    (cipherHeader ep (s.slotSeq (s.slot ep)) ((innerPlaintext c f).length + tag)) (innerPlaintext c f) = some ct

/-- Everything `create_ciphertext_record` can do. -/
theorem createCipher_ind {motive : Res Unit × Eng → Prop} (env : Env) (c : UInt8) (ep : Nat) (sv : Bool)
    (f : Bytes) (s : Eng)
    (over : sv = true → s.saved.length ≥ 12 → motive (.fail .panic, s))
    (stop : ∀ flt, (flt = .panic ∨ flt = .fatal .crypto) → (sv = true → s.saved.length < 12) →
      motive (.fail flt, savedAs s sv (entryOf s c ep f)))
    (full : ∀ suite tag k ct flt, Seals env s c ep f suite tag k ct → (sv = true → s.saved.length < 12) →
      (flt = .fatal .transmitQueueFull ∨ flt = .fatal .crypto) →
      motive (.fail flt, sealedSt (savedAs s sv (entryOf s c ep f)) k ep))
    (sent : ∀ suite tag k ct, Seals env s c ep f suite tag k ct → (sv = true → s.saved.length < 12) →
      hasRoom s (5 + ct.length) → s.slotSeq (s.slot ep) < maxSeq →
      motive (.ok (), emitCipher env (sealedSt (savedAs s sv (entryOf s c ep f)) k ep) suite (s.slot ep) k c ep
        (canAppend s (5 + ct.length)) f ct)) :
    motive (createCipher env c ep sv f s) := by
  unfold createCipher
  rcases saveEntry_eq s sv (entryOf s c ep f) with ⟨h, h1, h2⟩ | ⟨h, h1⟩
  · unfold entryOf at h
    rw [h]
    exact over h1 h2
  · unfold entryOf at h
    rw [h]
    change motive (sealCipher env c ep f (savedAs s sv (entryOf s c ep f)))
    unfold sealCipher
    split
    · rename_i suite tag hsu htag
      have htag' : env.suiteTag suite = some tag := by
        unfold Eng.tag at htag; rw [hsu] at htag; exact htag
      split
      · exact stop _ (.inr rfl) h1
      · rename_i k hk
        dsimp only
        split
        · exact stop _ (.inr rfl) h1
        · rename_i ct hct
          have hs : Seals env s c ep f suite tag k ct := ⟨hsu, htag', hk, hct⟩
          unfold queueCipher
          dsimp only
          split
          · exact full suite tag k ct _ hs h1 (.inl rfl)
          · rename_i hr
            split
            · exact full suite tag k ct _ hs h1 (.inr rfl)
            · rename_i hm
              refine sent suite tag k ct hs h1 (hasRoom_of hr) ?_
              have : Eng.slotSeq (savedAs s sv (entryOf s c ep f)) (Eng.slot (savedAs s sv (entryOf s c ep f)) ep)
                = s.slotSeq (s.slot ep) := rfl
              have h2 : ¬ (s.slotSeq (s.slot ep) ≥ maxSeq) := hm
              omega
    · exact stop _ (.inl rfl) h1

/-! ## Fields records do not change -/

theorem countSent_appEpoch (s : Eng) (sl : Slot) (n : Nat) : (countSent s sl n).appEpoch = s.appEpoch := by
  unfold countSent; repeat' split
  all_goals rfl

theorem pushWire_eq (s : Eng) (a : Bool) (b : Bytes) :
    ∃ tx sd, pushWire s a b = { s with tx := tx, sealedDg := sd } := by
  unfold pushWire; split <;> exact ⟨_, _, rfl⟩

theorem countSent_eq (s : Eng) (sl : Slot) (n : Nat) : ∃ a b c d e,
    countSent s sl n = { s with hsSeq := a, prevSeq := b, appSeq := c, sendCount := d, needsKu := e } := by
  unfold countSent
  repeat' split
  all_goals exact ⟨_, _, _, _, _, rfl⟩

/-- What sending protected records can change. -/
def CipherShape (s s' : Eng) : Prop := ∃ tx sd a b c d e sv l, s' = { s with
  tx := tx, sealedDg := sd, hsSeq := a, prevSeq := b, appSeq := c, sendCount := d, needsKu := e, saved := sv
  log := l }

theorem CipherShape.refl (s : Eng) : CipherShape s s := ⟨_, _, _, _, _, _, _, _, _, rfl⟩
theorem CipherShape.trans {a b c : Eng} (h : CipherShape a b) (h' : CipherShape b c) : CipherShape a c := by
  obtain ⟨_, _, _, _, _, _, _, _, _, rfl⟩ := h
  obtain ⟨_, _, _, _, _, _, _, _, _, rfl⟩ := h'
  exact ⟨_, _, _, _, _, _, _, _, _, rfl⟩

theorem createCipher_shape (env : Env) (c ep sv f s) : CipherShape s (createCipher env c ep sv f s).2 := by
  refine createCipher_ind (motive := fun r => CipherShape s r.2) env c ep sv f s (fun _ _ => .refl s)
    (fun _ _ _ => ⟨_, _, _, _, _, _, _, _, _, rfl⟩) (fun _ _ _ _ _ _ _ _ => ⟨_, _, _, _, _, _, _, _, _, rfl⟩)
    (fun suite tag k ct _ _ _ _ => ?_)
  unfold emitCipher
  dsimp only
  obtain ⟨a1, a2, a3, a4, a5, h1⟩ := countSent_eq (sealedSt (savedAs s sv (entryOf s c ep f)) k ep) (s.slot ep) ep
  rw [h1]
  unfold pushWire
  split <;> exact ⟨_, _, _, _, _, _, _, _, _, rfl⟩

theorem createCipher_appEpoch (env : Env) (c ep sv f s) :
    (createCipher env c ep sv f s).2.appEpoch = s.appEpoch := by
  obtain ⟨_, _, _, _, _, _, _, _, _, h⟩ := createCipher_shape env c ep sv f s
  rw [h]

end Verif.E13

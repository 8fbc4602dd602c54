import Verif.Lemmas.Tx12
/-!
# What the datagrams of a DTLS 1.2 engine consist of
-/
namespace Verif.E12
open Verif Wire Window Timer Aead M

/-- Datagrams handed out so far, newest first. -/
def sentOf : List Ev → List Bytes
  | [] => []
  | .sent p :: l => p :: sentOf l
  | _ :: l => sentOf l

theorem sentOf_append (es l : List Ev) (h : ∀ e ∈ es, Ev.isTx e = false) : sentOf (es ++ l) = sentOf l := by
  induction es with
  | nil => rfl
  | cons e es ih =>
    have h1 := h e (by simp)
    have h2 := ih fun x hx => h x (by simp [hx])
    cases e <;> simp [Ev.isTx] at h1 <;> simpa [sentOf] using h2

/-- `r` was made from `plain`: as it is in epoch 0; sealed in epoch 1. -/
structure Made (env : Env) (s : Eng) (r : Rec12) (plain : Bytes) : Prop where
  version : r.version = verDtls12
  length : r.length = r.fragment.length % 65536
  queued : Ev.queued r.ctype r.epoch r.seq plain ∈ s.log
  body : (r.epoch = 0 ∧ r.fragment = plain) ∨
    (r.epoch = 1 ∧ ∃ key iv x nonce ct, s.writeKey = some (key, iv) ∧ r.fragment = x ++ ct ∧
      (s.explicitLen = 0 ∧ x = [] ∨ s.explicitLen = 8 ∧ ∃ t, x = env.rand t 8) ∧
      recordNonce s.explicitLen iv x 1 r.seq = some nonce ∧
      env.enc key nonce (aad12 r.ctype 1 r.seq (plain.length % 65536)) plain = some ct ∧
      Ev.sealed key nonce r.ctype 1 r.seq ∈ s.log)

theorem Made.later {env : Env} {s s' : Eng} {r : Rec12} {p : Bytes} (h : Made env s r p)
    (hl : ∀ e ∈ s.log, e ∈ s'.log)
    (hk : s.writeKey ≠ none → s'.writeKey = s.writeKey ∧ s'.explicitLen = s.explicitLen) : Made env s' r p := by
  refine ⟨h.version, h.length, hl _ h.queued, ?_⟩
  rcases h.body with g | ⟨g, key, iv, x, n, ct, h1, h2, h3, h4, h5, h6⟩
  · exact .inl g
  · obtain ⟨k1, k2⟩ := hk (by rw [h1]; simp)
    exact .inr ⟨g, key, iv, x, n, ct, k1.trans h1, h2, k2 ▸ h3, k2 ▸ h4, h5, hl _ h6⟩

/-- A datagram made of records. -/
def wireOf (rs : List Rec12) : Bytes := (rs.map serialize12).flatten

/-- Epoch and number of a record. -/
def recNum (r : Rec12) : Nat × Nat := (r.epoch, r.seq)

/-- Every datagram handed out or queued is made of records with their own numbers. -/
def Wired (env : Env) (s : Eng) : Prop :=
  ∃ rss : List (List Rec12), (sentOf s.log).reverse ++ s.tx = rss.map wireOf ∧
    (rss.flatten.map recNum).Nodup ∧ ∀ r ∈ rss.flatten, ∃ plain, Made env s r plain

theorem mem_numbers {l : List Ev} {c : UInt8} {e q : Nat} {p : Bytes} (h : Ev.queued c e q p ∈ l) :
    (e, q) ∈ numbers l := by
  induction l with
  | nil => cases h
  | cons x l ih =>
    rcases List.mem_cons.mp h with rfl | h
    · simp [numbers]
    · have := ih h
      cases x <;> simp [numbers, this]

/-- Another record is queued. -/
theorem Wired.push {env : Env} {s s' : Eng} {r : Rec12} {plain : Bytes} {a : Bool} (h : Wired env s)
    (ha : a = true → s.tx ≠ []) (hx : s'.tx = pushWire s.tx a (serialize12 r))
    (hs : sentOf s'.log = sentOf s.log) (hl : ∀ e ∈ s.log, e ∈ s'.log)
    (hk : s'.writeKey = s.writeKey) (he : s'.explicitLen = s.explicitLen) (hr : Made env s' r plain)
    (hf : recNum r ∉ numbers s.log) : Wired env s' := by
  obtain ⟨rss, h1, h2, h3⟩ := h
  have hnew : ∀ x ∈ rss.flatten, recNum x ≠ recNum r := by
    intro x hx hc
    obtain ⟨p, hp⟩ := h3 x hx
    exact hf (hc ▸ mem_numbers hp.queued)
  have hold : ∀ x ∈ rss.flatten, ∃ p, Made env s' x p := fun x hx =>
    (h3 x hx).imp fun p hp => hp.later hl fun _ => ⟨hk, he⟩
  have hnd : ((rss.flatten ++ [r]).map recNum).Nodup := by
    rw [List.map_append, List.nodup_append]
    refine ⟨h2, by simp, ?_⟩
    intro x hx y hy
    obtain ⟨z, hz, rfl⟩ := List.mem_map.mp hx
    simp at hy
    subst hy
    exact hnew z hz
  have hmd : ∀ x ∈ rss.flatten ++ [r], ∃ p, Made env s' x p := by
    intro x hx
    rcases List.mem_append.mp hx with hx | hx
    · exact hold x hx
    · simp at hx; subst hx; exact ⟨plain, hr⟩
  unfold pushWire at hx
  split at hx
  · rename_i hat
    have hne := ha hat
    obtain ⟨rss', l, rfl⟩ : ∃ rss' l, rss = rss' ++ [l] := by
      rcases List.eq_nil_or_concat rss with rfl | ⟨q, l, rfl⟩
      · simp at h1
        exact absurd h1.2 hne
      · exact ⟨q, l, by simp⟩
    obtain ⟨tx', b, htx⟩ : ∃ tx' b, s.tx = tx' ++ [b] := by
      rcases List.eq_nil_or_concat s.tx with h | ⟨q, l, h⟩
      · exact absurd h hne
      · exact ⟨q, l, by simpa using h⟩
    rw [htx, ← List.append_assoc, List.map_append] at h1
    obtain ⟨g1, g2⟩ := List.append_inj' h1 rfl
    have hflat : (rss' ++ [l ++ [r]]).flatten = (rss' ++ [l]).flatten ++ [r] := by simp
    refine ⟨rss' ++ [l ++ [r]], ?_, by rw [hflat]; exact hnd, by rw [hflat]; exact hmd⟩
    rw [hs, hx, htx]
    simp only [List.dropLast_concat, List.getLast?_append, List.getLast?_singleton, Option.some_or,
      Option.getD_some]
    rw [← List.append_assoc, g1, List.map_append]
    simp at g2
    rw [g2]
    simp [wireOf]
  · have hflat : (rss ++ [[r]]).flatten = rss.flatten ++ [r] := by simp
    refine ⟨rss ++ [[r]], ?_, by rw [hflat]; exact hnd, by rw [hflat]; exact hmd⟩
    rw [hs, hx, ← List.append_assoc, h1]
    simp [wireOf]

theorem writeKey_none {s : Eng} (h : s.keys = none) : s.writeKey = none := by
  unfold Eng.writeKey; rw [h]; rfl

theorem Wired.same {env : Env} {s s' : Eng} (h : Wired env s) (hx : s'.tx = s.tx)
    (hs : sentOf s'.log = sentOf s.log) (hl : ∀ e ∈ s.log, e ∈ s'.log)
    (hk : s.writeKey ≠ none → s'.writeKey = s.writeKey ∧ s'.explicitLen = s.explicitLen) : Wired env s' := by
  obtain ⟨rss, h1, h2, h3⟩ := h
  exact ⟨rss, by rw [hs, hx, h1], h2, fun r hr => (h3 r hr).imp fun p hp => hp.later hl hk⟩

theorem wired_inv (env : Env) : TxInv env (fun s => FreshInv s ∧ Wired env s) where
  same s s' h hs := by
    refine ⟨(fresh_inv env).same s s' h hs.1, ?_⟩
    obtain ⟨_, _, _, _, _, _, _, _, _, _, _, _, _, es, _, he, rfl⟩ := h
    exact hs.2.same rfl (sentOf_append es _ he) (fun e h => by simp [h]) fun _ => ⟨rfl, rfl⟩
  record s c e sv fo f hs := by
    refine ⟨(fresh_inv env).record s c e sv fo f hs.1, ?_⟩
    obtain ⟨⟨h0, _⟩, hw⟩ := hs
    obtain ⟨sav, hsav⟩ : ∃ sav, saveEntry s sv ⟨c, e, f⟩ = { s with saved := sav } := by
      unfold saveEntry
      split
      · exact ⟨_, rfl⟩
      · exact ⟨s.saved, rfl⟩
    refine createRecord_ind (motive := fun r => Wired env r.2) env c e sv fo f s
      (fun _ _ => hw) (fun _ _ => ?_) (fun _ t _ ht _ => ?_) (fun _ _ => ?_)
      (fun _ _ _ key iv nonce ct hwk he hn henc => ?_)
    · rw [hsav]; exact hw.same rfl rfl (fun _ h => h) fun _ => ⟨rfl, rfl⟩
    · rw [hsav]; exact hw.same rfl rfl (fun _ h => h) fun _ => ⟨rfl, rfl⟩
    · rw [hsav]
      refine hw.push (r := ⟨c, verDtls12, 0, s.seq0, f.length % 65536, f⟩) (plain := f) canAppend_ne rfl rfl
        (fun e h => by simp [emitRecord, h]) rfl rfl ⟨rfl, rfl, by simp [emitRecord], .inl ⟨rfl, rfl⟩⟩ ?_
      intro hm
      have := h0 _ hm
      simp [recNum] at this
    · rw [hsav]
      refine hw.push (r := ⟨c, verDtls12, 1, s.seqN, (explicitNonce env s ++ ct).length % 65536, explicitNonce env s ++ ct⟩)
        (plain := f) canAppend_ne rfl rfl (fun e h => by simp [emitRecord, sealedState, h]) rfl rfl
        ⟨rfl, rfl, by simp [emitRecord, sealedState], .inr ⟨rfl, key, iv, _, nonce, ct, hwk, rfl, ?_, hn, henc,
          by simp [emitRecord, sealedState]⟩⟩ ?_
      · unfold explicitNonce
        rcases he with he | he
        · exact .inl ⟨he, by rw [if_neg (by omega)]⟩
        · exact .inr ⟨he, s.tick, by rw [if_pos he]⟩
      · intro hm
        have := h0 _ hm
        simp [recNum] at this
  clear s hs := by
    refine ⟨hs.1, ?_⟩
    obtain ⟨rss, h1, h2, h3⟩ := hs.2
    have hsub : (rss.take (sentOf s.log).length).flatten.Sublist rss.flatten := by
      conv => rhs; rw [← List.take_append_drop (sentOf s.log).length rss, List.flatten_append]
      exact List.sublist_append_left _ _
    refine ⟨rss.take (sentOf s.log).length, ?_, h2.sublist (hsub.map _), fun r hr => ?_⟩
    · have := congrArg (List.take (sentOf s.log).length) h1
      rw [List.take_left' (by simp), ← List.map_take] at this
      simpa using this
    · exact (h3 r (hsub.subset hr)).imp fun p hp => hp.later (fun _ h => h) fun _ => ⟨rfl, rfl⟩
  saved s l hs := ⟨hs.1, hs.2.same rfl rfl (fun _ h => h) fun _ => ⟨rfl, rfl⟩⟩
  sent s p rest h hs := by
    refine ⟨hs.1, ?_⟩
    obtain ⟨rss, h1, h2, h3⟩ := hs.2
    refine ⟨rss, ?_, h2, fun r hr => (h3 r hr).imp fun p hp => hp.later (fun _ h => by simp [h]) fun _ => ⟨rfl, rfl⟩⟩
    simp [sentOf]
    rw [← h1, h]
  suite s cs e m hk _ hs := ⟨hs.1, hs.2.same rfl rfl (fun _ h => h) fun h => absurd (writeKey_none hk) h⟩
  keys s k hk hs := ⟨hs.1, hs.2.same rfl rfl (fun _ h => h) fun h => absurd (writeKey_none hk) h⟩

/-- Sealed records with the same key and nonce are the same. -/
theorem sealed_unique {l : List Ev} (h : (nonces l).Nodup) {k n : Bytes} {c c' : UInt8} {e e' q q' : Nat}
    (h1 : Ev.sealed k n c e q ∈ l) (h2 : Ev.sealed k n c' e' q' ∈ l) : q = q' := by
  have mem : ∀ {l : List Ev} {c : UInt8} {e q : Nat}, Ev.sealed k n c e q ∈ l → (k, n) ∈ nonces l := by
    intro l c e q h
    induction l with
    | nil => cases h
    | cons x l ih =>
      rcases List.mem_cons.mp h with rfl | h
      · simp [nonces]
      · have := ih h
        cases x <;> simp [nonces, this]
  induction l with
  | nil => cases h1
  | cons x l ih =>
    rcases List.mem_cons.mp h1 with g1 | g1 <;> rcases List.mem_cons.mp h2 with g2 | g2
    · rw [← g1] at g2
      cases g2
      rfl
    · subst g1
      simp [nonces] at h
      exact absurd (mem g2) h.1
    · subst g2
      simp [nonces] at h
      exact absurd (mem g1) h.1
    · refine ih ?_ g1 g2
      cases x <;> simp [nonces] at h <;> first | exact h | exact h.2

end Verif.E12

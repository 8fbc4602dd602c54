import Verif.Lemmas.Run13
/-!
# What the datagrams of a DTLS 1.3 session consist of
-/
namespace Verif.E13
open Verif Wire Window Timer Aead M
open Verif.E12 (Call)

/-- A record that was sent: the keys that protect it, type, epoch, number, content, and its bytes. -/
structure Sent where
  keys : Option Keys
  ctype : UInt8
  epoch : Nat
  seq : Nat
  plain : Bytes
  wire : Bytes

/-- The bytes are what becomes of the content: as it is without keys, otherwise sealed under the keys of
the record with the nonce made from its number. -/
def Sent.Made (env : Env) (x : Sent) : Prop :=
  match x.keys with
  | none => x.epoch = 0 ∧ x.wire = serializePlain13 x.ctype 0 x.seq (x.plain.length % 65536) x.plain
  | some k => ∃ suite tag ct, env.suiteTag suite = some tag ∧
      env.enc k.key (nonceXor k.iv x.seq)
        (cipherHeader x.epoch x.seq ((innerPlaintext x.ctype x.plain).length + tag))
        (innerPlaintext x.ctype x.plain) = some ct ∧
      x.wire = wireOf env suite k x.epoch x.seq ct

def Sent.ev (x : Sent) : Ev := .queued x.keys x.ctype x.epoch x.seq x.plain

/-- Events of queued records. -/
def Ev.isQueued : Ev → Bool
  | .queued .. => true
  | _ => false

/-- Every datagram handed out or waiting is made of records, in the order in which they were made. -/
def Wired (env : Env) (tx : List Bytes) (l : List Ev) : Prop :=
  ∃ rss : List (List Sent), (sentOf l).reverse ++ tx = rss.map (fun rs => (rs.map Sent.wire).flatten) ∧
    (rss.flatten.map Sent.ev).Sublist (l.filter Ev.isQueued).reverse ∧ ∀ x ∈ rss.flatten, x.Made env

theorem Wired.push {env : Env} {tx : List Bytes} {l : List Ev} (h : Wired env tx l) (a : Bool)
    (ha : a = true → tx ≠ []) (x : Sent) (hx : x.Made env) : Wired env (pushTx tx a x.wire) (x.ev :: l) := by
  obtain ⟨rss, h1, h2, h3⟩ := h
  have hs : sentOf (x.ev :: l) = sentOf l := rfl
  have hq : ((x.ev :: l).filter Ev.isQueued).reverse = (l.filter Ev.isQueued).reverse ++ [x.ev] := by
    rw [List.filter_cons]; simp [Sent.ev, Ev.isQueued]
  have hsub : ((rss.flatten ++ [x]).map Sent.ev).Sublist ((x.ev :: l).filter Ev.isQueued).reverse := by
    rw [hq, List.map_append]
    exact h2.append (List.Sublist.refl _)
  have hmd : ∀ y ∈ rss.flatten ++ [x], y.Made env := by
    intro y hy
    rcases List.mem_append.mp hy with hy | hy
    · exact h3 y hy
    · rw [List.mem_singleton.mp hy]; exact hx
  unfold pushTx
  split
  · rename_i hat
    have hne := ha hat
    obtain ⟨rss', rs, rfl⟩ : ∃ rss' rs, rss = rss' ++ [rs] := by
      rcases List.eq_nil_or_concat rss with rfl | ⟨q, rs, rfl⟩
      · simp at h1
        exact absurd h1.2 hne
      · exact ⟨q, rs, by simp⟩
    obtain ⟨tx', b, rfl⟩ : ∃ tx' b, tx = tx' ++ [b] := by
      rcases List.eq_nil_or_concat tx with h | ⟨q, b, h⟩
      · exact absurd h hne
      · exact ⟨q, b, by simpa using h⟩
    rw [← List.append_assoc, List.map_append] at h1
    obtain ⟨g1, g2⟩ := List.append_inj' h1 rfl
    have hflat : (rss' ++ [rs ++ [x]]).flatten = (rss' ++ [rs]).flatten ++ [x] := by simp
    refine ⟨rss' ++ [rs ++ [x]], ?_, by rw [hflat]; exact hsub, by rw [hflat]; exact hmd⟩
    rw [hs]
    simp only [List.dropLast_concat, List.getLast?_append, List.getLast?_singleton, Option.some_or,
      Option.getD_some]
    rw [← List.append_assoc, g1, List.map_append]
    simp at g2
    rw [g2]
    simp
  · have hflat : (rss ++ [[x]]).flatten = rss.flatten ++ [x] := by simp
    refine ⟨rss ++ [[x]], ?_, by rw [hflat]; exact hsub, by rw [hflat]; exact hmd⟩
    rw [hs, ← List.append_assoc, h1]
    simp

theorem canAppend_ne {s : Eng} {n : Nat} (h : canAppend s n = true) : s.tx ≠ [] := by
  intro hc
  simp [canAppend, hc] at h

theorem Wired.other {env : Env} {tx : List Bytes} {l l' : List Ev} (h : Wired env tx l)
    (h1 : sentOf l' = sentOf l) (h2 : l'.filter Ev.isQueued = l.filter Ev.isQueued) : Wired env tx l' := by
  unfold Wired
  rw [h1, h2]
  exact h

theorem Wired.clear {env : Env} {tx : List Bytes} {l : List Ev} (h : Wired env tx l) : Wired env [] l := by
  obtain ⟨rss, h1, h2, h3⟩ := h
  have hsub : (rss.take (sentOf l).length).flatten.Sublist rss.flatten := by
    conv => rhs; rw [← List.take_append_drop (sentOf l).length rss, List.flatten_append]
    exact List.sublist_append_left _ _
  refine ⟨rss.take (sentOf l).length, ?_, (hsub.map _).trans h2, fun r hr => h3 r (hsub.subset hr)⟩
  have := congrArg (List.take (sentOf l).length) h1
  rw [List.take_left' (by simp), ← List.map_take] at this
  simpa using this

theorem wired_inv (env : Env) : TxInv env (fun _ => True) (fun q => Wired env q.tx q.log)
    (fun _ _ _ _ _ => True) := by
  have drop : ∀ (e : Ev) l, (∀ a b c d f, e ≠ .queued a b c d f) → (∀ p, e ≠ .sent p) →
      sentOf (e :: l) = sentOf l ∧ (e :: l).filter Ev.isQueued = l.filter Ev.isQueued := by
    intro e l h1 h2
    cases e <;> first | exact ⟨rfl, rfl⟩ | exact absurd rfl (h1 _ _ _ _ _) | exact absurd rfl (h2 _)
  refine txInv_of env (Q := fun _ tx l => Wired env tx l) (G := fun _ _ _ _ => True) ?_ ?_ ?_ ?_
    (fun _ _ _ h => h.clear) (fun _ _ _ _ _ _ _ => trivial) (fun _ _ _ _ _ _ => trivial) (fun _ _ _ _ _ => trivial)
  · intro s c f h _ _ _
    exact h.push _ canAppend_ne ⟨none, c, 0, s.seq0, f, serializePlain13 c 0 s.seq0 (f.length % 65536) f⟩
      ⟨rfl, rfl⟩
  · intro s c ep f suite tag k ct h _ hs _ _
    exact h.push _ canAppend_ne
      ⟨some k, c, ep, s.slotSeq (s.slot ep), f, wireOf env suite k ep (s.slotSeq (s.slot ep)) ct⟩
      ⟨suite, tag, ct, hs.htag, hs.enc, rfl⟩
  · intro cfg tx l e h1 h2 h
    obtain ⟨g1, g2⟩ := drop e l h1 h2
    exact h.other g1 g2
  · intro cfg tx l e x h1 h2 h
    obtain ⟨g1, g2⟩ := drop x l h1 h2
    refine h.other ?_ ?_
    · cases e <;> simp [sentOf, g1]
    · simp only [List.filter_cons] at g2 ⊢
      rw [g2]

/-- Everything handed out over a whole connection. -/
theorem Start.wired {env : PEnv} {cfg : Cfg} {R : Role} {s0 : Ses R.St} (h : Start env cfg R s0) (cs : List Call) :
    ∃ rss : List (List Sent),
      packets (E12.outputs (run R env s0 cs).1) = rss.map (fun rs => (rs.map Sent.wire).flatten) ∧
      (rss.flatten.map Sent.ev).Sublist ((run R env s0 cs).2.eng.log.filter Ev.isQueued).reverse ∧
      ∀ x ∈ rss.flatten, x.Made env.toEnv := by
  have hw := h.txLog (Q := fun _ tx l => Wired env.toEnv tx l) (G := fun _ _ _ _ => True) (wired_inv env.toEnv)
    (fun cfg p rest l ⟨rss, h1, h2, h3⟩ => ⟨rss, by simpa [sentOf] using h1, h2, h3⟩)
    ⟨[], by simp [sentOf], by simp, by simp⟩ cs (fun _ _ => trivial)
  obtain ⟨_, hr⟩ := h.roleOk
  have hs := (run_sent hr cs s0 (by rw [h.saved0.2.1]; simp)).1
  obtain ⟨rss, h1, h2, h3⟩ := hw.clear
  rw [h.saved0.2.2.1] at hs
  refine ⟨rss, ?_, ?_, h3⟩
  · rw [← h1, sentOf_filter, hs]
    simp [sentOf]
  · have : (List.filter Ev.isTx (run R env s0 cs).2.eng.log).filter Ev.isQueued =
        (run R env s0 cs).2.eng.log.filter Ev.isQueued := by
      rw [List.filter_filter]
      congr 1
      funext e
      cases e <;> rfl
    rw [this] at h2
    exact h2

end Verif.E13

import Verif.Lemmas.Fresh13
import Verif.Lemmas.Wired13
import Verif.Props.Demo13
import Verif.Props.Kdf
import Verif.Props.Send13
/-!
# Record numbers and nonces of a DTLS 1.3 session (C06, C33)
-/
namespace Verif.Props.Fresh13
open Verif Verif.E13 Verif.Wire Verif.Aead Verif.M
open Verif.E12 (outputs Call Ret)

variable {env : PEnv} {cfg : Cfg} {R : Role} {s0 : Ses R.St}

/-- Sealed under the same key with the same nonce. -/
def Clash (x y : Sent) : Prop :=
  ∃ k k', x.keys = some k ∧ y.keys = some k' ∧ k.key = k'.key ∧ nonceXor k.iv x.seq = nonceXor k'.iv y.seq

/-- Keys of different epochs are different. -/
def KeysDiffer (rs : List Sent) : Prop :=
  ∀ x ∈ rs, ∀ y ∈ rs, ∀ k k', x.keys = some k → y.keys = some k' → k.key = k'.key → x.epoch = y.epoch

/-- **C06, C33.** All datagrams handed out over a whole connection are made of records. No two of them
have the same epoch and number, retransmissions included; records of one epoch are sealed under the same
keys; and if keys of different epochs differ and IVs have 12 bytes, no two are sealed under the same key with
the same nonce.

Missing from C06: a caller that goes on after a call failed leaving keys behind that the state does not know
of (`Role.ahead`: a key derivation failed between the two keys, or a record kept for later failed when the
encryption of the peer was turned on). That keys of different epochs differ is a matter of the key
schedule, of which C52 shows the inputs differ. -/
theorem nonces_differ_partial (h : Start env cfg R s0) (cs : List Call) (ha : Careful R env s0 cs) :
    ∃ rss : List (List Sent),
      packets (outputs (run R env s0 cs).1) = rss.map (fun rs => (rs.map Sent.wire).flatten) ∧
      (∀ x ∈ rss.flatten, x.Made env.toEnv) ∧
      (rss.flatten.map fun x => (x.epoch, x.seq)).Nodup ∧
      (∀ x ∈ rss.flatten, ∀ y ∈ rss.flatten, x.epoch = y.epoch → x.keys = y.keys) ∧
      (KeysDiffer rss.flatten → (∀ x ∈ rss.flatten, ∀ k, x.keys = some k → k.iv.length = 12) →
        rss.flatten.Pairwise fun x y => ¬ Clash x y) := by
  obtain ⟨rss, h1, h2, h3⟩ := h.wired cs
  have hu := h.uniq cs ha
  have hin : ∀ x ∈ rss.flatten, x.ev ∈ (run R env s0 cs).2.eng.log := fun x hx =>
    (List.mem_filter.mp (List.mem_reverse.mp (h2.subset (List.mem_map_of_mem (f := Sent.ev) hx)))).1
  have hnd : (rss.flatten.map fun x => (x.epoch, x.seq)).Nodup := by
    have g1 := h2.filterMap Ev.num
    rw [List.filterMap_reverse, List.filterMap_map] at g1
    have g2 : (rss.flatten.filterMap (Ev.num ∘ Sent.ev)) = rss.flatten.map fun x => (x.epoch, x.seq) := by
      rw [← List.filterMap_eq_map]; rfl
    rw [g2, List.filterMap_filter] at g1
    have g3 : (fun e => if Ev.isQueued e = true then Ev.num e else none) = Ev.num := by
      funext e; cases e <;> rfl
    rw [g3] at g1
    exact g1.nodup (List.pairwise_reverse.mpr (hu.nodup.imp fun h => h.symm))
  have hsm : ∀ x ∈ rss.flatten, ∀ y ∈ rss.flatten, x.epoch = y.epoch → x.keys = y.keys := by
    intro x hx y hy he
    have hx' := hin x hx
    have hy' := hin y hy
    unfold Sent.ev at hx' hy'
    rw [he] at hx'
    exact hu.same _ _ _ _ _ _ _ _ _ hx' hy'
  have hb := (Send13.bounded h cs)
  refine ⟨rss, h1, h3, hnd, hsm, fun hk hl => ?_⟩
  have hpw : rss.flatten.Pairwise fun x y => (x.epoch, x.seq) ≠ (y.epoch, y.seq) := List.pairwise_map.mp hnd
  refine (List.Pairwise.and_mem.mp hpw).imp ?_
  rintro x y ⟨hx, hy, hne⟩ ⟨k, k', e1, e2, e3, e4⟩
  have he := hk x hx y hy k k' e1 e2 e3
  have hkk : some k = some k' := e1.symm.trans ((hsm x hx y hy he).trans e2)
  cases hkk
  have := Kdf.nonce_xor_injective k.iv x.seq y.seq (hl x hx k e1) (by have := hb _ _ _ _ _ (hin x hx); omega)
    (by have := hb _ _ _ _ _ (hin y hy); omega) e4
  exact hne (by rw [he, this])

/-- The call did not fail. -/
def fine : Ret → Bool
  | .res .ok => true
  | .out .panic => false
  | .out _ => true
  | _ => false

/-- A caller none of whose calls failed is careful. -/
theorem careful_of_fine {cs : List Call} {s : Ses R.St} (h : (run R env s cs).1.all fine = true) :
    Careful R env s cs := by
  induction cs generalizing s with
  | nil => trivial
  | cons c cs ih =>
    unfold run at h
    dsimp only at h
    split at h
    · rename_i hs
      rcases hs with hs | hs | hs <;> simp [hs, fine] at h
    · simp only [List.all_cons, Bool.and_eq_true] at h
      refine ⟨.inr ?_, ih h.2⟩
      cases hr : (call R env s c).1 with
      | out o => exact .inr (.inl ⟨o, rfl⟩)
      | res r => 
        rw [hr] at h
        cases r with
        | ok => exact .inl rfl
        | _ => exact absurd h.1 (by simp [fine])

/-- The client sends its last flight, a record of data, the flight again, and another record. -/
def calls : List Call :=
  (Demo.rounds Demo.fullEnv Demo.fullEnv 2).cCalls ++ [.poll 2000, .poll 2000, .poll 2000, .poll 2000, .send [1],
    .poll 2000, .timeout 1, .timeout 1000000001, .poll 2000, .send [2]]

theorem calls_fine :
    (run C13.role Demo.fullEnv (C13.start Demo.fullEnv Demo.cfg 0) calls).1.all fine = true := by decide +kernel

attribute [local irreducible] Careful in
/-- Such a caller is careful. -/
example : Careful C13.role Demo.fullEnv (C13.start Demo.fullEnv Demo.cfg 0) calls :=
  careful_of_fine (R := C13.role) (env := Demo.fullEnv) (s := C13.start Demo.fullEnv Demo.cfg 0) (cs := calls) calls_fine

/-- The records it sent, newest first. -/
example : (run C13.role Demo.fullEnv (C13.start Demo.fullEnv Demo.cfg 0) calls).2.eng.log.filterMap Ev.num =
    [(3, 1), (2, 5), (2, 4), (2, 3), (3, 0), (2, 2), (2, 1), (2, 0), (0, 1), (0, 0)] := by decide +kernel

end Verif.Props.Fresh13

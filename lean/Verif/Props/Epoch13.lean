import Verif.Lemmas.Epoch13
import Verif.Props.Fresh13
import Verif.Props.Recv13
import Verif.Props.App13
/-!
# Receive epochs and numbers of a DTLS 1.3 session (C01, C05, C15, C18)

`Careful` is explained at `Fresh13.nonces_differ_partial`.
-/
namespace Verif.Props.Epoch13
open Verif Verif.E13 Verif.Wire Verif.M
open Verif.E12 (outputs Call Ret)

variable {env : PEnv} {cfg : Cfg} {R : Role} {s0 : Ses R.St}

/-! ## C05 -/

/-- Epochs of the application receive keys held, oldest first. -/
def epochs (e : Eng) : List Nat := e.appRecv.map (·.epoch)

/-- **C05.** At any time the receive epochs held are consecutive and at most four; they start with epoch 3
unless there are four. Once application data is released, the two bits in a record header select,
of the epochs held, the one they belong to.

Missing from C05: a caller that is not `Careful`. -/
theorem epochs_resolve_partial (h : Start env cfg R s0) (cs : List Call) (ha : Careful R env s0 cs) :
    let e := (run R env s0 cs).2.eng
    (∃ first, (first = 3 ∨ 3 ≤ first ∧ (epochs e).length = 4) ∧ epochs e = List.range' first (epochs e).length) ∧
    (epochs e).length ≤ 4 ∧
    (e.release = true → ∀ x ∈ epochs e, e.resolveEpoch (x % 4) = x) := by
  intro e
  have hr : RcvOk e := (h.rcv cs ha).1
  obtain ⟨a, h1, h2⟩ := hr.chain
  have hl : (epochs e).length = e.appRecv.length := List.length_map ..
  refine ⟨⟨a, by rw [hl]; exact h1, by rw [hl]; exact h2⟩, by rw [hl]; exact hr.few, fun hrel x hx => ?_⟩
  have h4 := hr.few
  have bound : ∀ r ∈ e.appRecv, a ≤ r.epoch ∧ r.epoch < a + e.appRecv.length := by
    intro r hm
    have : r.epoch ∈ e.appRecv.map (·.epoch) := List.mem_map_of_mem hm
    rw [h2, List.mem_range'_1] at this
    exact this
  unfold Eng.resolveEpoch
  rw [hrel]
  simp only [Bool.not_true, Bool.and_false, Bool.false_eq_true, if_false]
  obtain ⟨r, hm, rfl⟩ := List.mem_map.mp hx
  cases hg : (e.appRecv.filter fun e => e.epoch % 4 == r.epoch % 4).getLast? with
  | none =>
    rw [List.getLast?_eq_none_iff] at hg
    have : r ∈ e.appRecv.filter fun e => e.epoch % 4 == r.epoch % 4 := List.mem_filter.mpr ⟨hm, by simp⟩
    rw [hg] at this
    cases this
  | some y =>
    have hy := List.mem_of_getLast? hg
    obtain ⟨hy1, hy2⟩ := List.mem_filter.mp hy
    have b1 := bound r hm
    have b2 := bound y hy1
    have : y.epoch % 4 = r.epoch % 4 := by simpa using hy2
    show y.epoch = r.epoch
    omega

/-- **C05.** Processing a KeyUpdate adds the epoch after the newest and drops the oldest if there were four, or
(if it fails) changes nothing. -/
theorem key_update_adds (env : Env) (e : Eng) :
    (∃ last, (epochs e).getLast? = some last ∧
      epochs (updateRecvKeys env e).2 = (if (epochs e).length < 4 then epochs e else (epochs e).drop 1) ++ [last + 1]) ∨
    ((updateRecvKeys env e).1 ≠ .ok () ∧ (updateRecvKeys env e).2 = e) := by
  unfold updateRecvKeys
  split
  · exact .inr ⟨nofun, rfl⟩
  · rename_i latest hl
    have key : wp (M.bind (deriveNextSecret env latest.keys.secret)
      (fun secret =>
        if latest.epoch ≥ 65535 then M.panic
        else M.bind (deriveEpochKeys env secret) fun k =>
          M.modify fun s =>
            let kept := if s.appRecv.length ≥ 4 then s.appRecv.drop 1 else s.appRecv
            { s with appRecv := kept ++
                [{ epoch := latest.epoch + 1, keys := k, expected := 0, replay := .new }] })) e
        (fun _ e' => epochs e' = (if (epochs e).length < 4 then epochs e else (epochs e).drop 1) ++ [latest.epoch + 1])
        (fun _ e' => e' = e) := by
      rw [wp_bind]
      refine wp_deriveNextSecret ?_ rfl rfl
      intro suite secret hs hn
      split
      · rfl
      · rw [wp_bind]
        refine wp_deriveEpochKeys ?_ rfl rfl
        intro suite' k hs' hk
        rw [wp_modify]
        unfold epochs
        dsimp only
        rw [List.map_append, List.length_map]
        congr 1
        split
        · rw [if_neg (by omega), List.map_drop]
        · rw [if_pos (by omega)]
    unfold wp at key
    split at key
    · rename_i he
      rw [he]
      exact .inl ⟨latest.epoch, by unfold epochs; rw [List.getLast?_map, hl]; rfl, key⟩
    · rename_i he
      rw [he]
      exact .inr ⟨nofun, key⟩

/-- Six KeyUpdates later a server holds the epochs 6 to 9; it started with 3. -/
def updates : List Call := [2, 3, 4, 5, 6, 7].map fun q => Call.packet (Recv13.forgedKeyUpdate q)

theorem updates_fine : (Demo.serverRun Demo.plainEnv updates).1.all Fresh13.fine = true := by decide +kernel

attribute [local irreducible] Careful in
example : Careful S13.role Demo.plainEnv (S13.start Demo.plainEnv Demo.cfg 0 false)
    (Demo.serverCalls Demo.plainEnv ++ updates) :=
  Fresh13.careful_of_fine (R := S13.role) (env := Demo.plainEnv) (s := S13.start Demo.plainEnv Demo.cfg 0 false)
    (cs := Demo.serverCalls Demo.plainEnv ++ updates) updates_fine

example : epochs (Demo.serverRun Demo.plainEnv []).2.eng = [3] ∧
    epochs (Demo.serverRun Demo.plainEnv updates).2.eng = [6, 7, 8, 9] ∧
    (Demo.serverRun Demo.plainEnv updates).2.eng.release = true := by decide +kernel

/-! ## C01, C18 -/

theorem delNums_delivered (l : List Ev) :
    delNums l = ((delivered l).filter (·.2)).map fun r => (r.1.epoch, r.1.seq) := by
  induction l with
  | nil => rfl
  | cons e l ih =>
    have : delNums (e :: l) = (Ev.delNum e).toList ++ delNums l := by
      unfold delNums; rw [List.filterMap_cons]; cases Ev.delNum e <;> rfl
    rw [this, ih]
    cases e with
    | delivered r o => cases o <;> rfl
    | _ => rfl

/-- **C18 and, for sessions, C01.** The application data handed out is, in order, the content of a list
of received records; those that were opened have pairwise different epochs and numbers. No two
records opened in the whole connection have the same epoch and number.

Missing from C18: a record that was not opened (`App13.delivers_forged`); it is delivered again if it comes again
(`App13.delivers_replayed`). And a caller that is not `Careful`. -/
theorem delivered_once_partial (h : Start env cfg R s0) (cs : List Call) (ha : Careful R env s0 cs) :
    ∃ recs : List (Rec13 × Bool),
      appData (outputs (run R env s0 cs).1) = recs.map (·.1.fragment) ∧
      ((recs.filter (·.2)).map fun r => (r.1.epoch, r.1.seq)).Nodup ∧
      (∀ r, (r, true) ∈ recs → ∃ k, App13.OpensTo env k r.seq ctAppData r.fragment ∧
        (App13.AppKey env r.epoch k ∨ r.epoch = 2 ∧ App13.HsKey env k)) ∧
      (openNums (run R env s0 cs).2.eng.log).Nodup := by
  obtain ⟨h1, h2⟩ := h.rcv cs ha
  refine ⟨(delivered (run R env s0 cs).2.eng.log).reverse, (h.shown cs).data, ?_, ?_, h1.nodup⟩
  · have := (List.nodup_append.mp h2.nodup).2.1
    rw [delNums_delivered] at this
    rw [List.filter_reverse, List.map_reverse]
    exact List.pairwise_reverse.mpr (this.imp fun h => h.symm)
  · intro r hr
    obtain ⟨h1, h2, _⟩ := (h.prov cs).del r true (mem_delivered.mp (List.mem_reverse.mp hr))
    obtain ⟨k, n, a, c, p, hm, hp⟩ := h2 rfl
    rw [h1] at hp
    exact ⟨k, App13.opened_means h cs hm hp⟩

/-- Data whose datagrams come twice is delivered once; the caller is careful. -/
def twice : List Call := App13.demoData.map .packet ++ App13.demoData.map .packet ++ List.replicate 4 (.poll 2000)

theorem twice_fine : (Demo.serverRun Demo.fullEnv twice).1.all Fresh13.fine = true := by decide +kernel

attribute [local irreducible] Careful in
example : Careful S13.role Demo.fullEnv (S13.start Demo.fullEnv Demo.cfg 0 false)
    (Demo.serverCalls Demo.fullEnv ++ twice) :=
  Fresh13.careful_of_fine (R := S13.role) (env := Demo.fullEnv) (s := S13.start Demo.fullEnv Demo.cfg 0 false)
    (cs := Demo.serverCalls Demo.fullEnv ++ twice) twice_fine

example : appData (outputs (Demo.serverRun Demo.fullEnv twice).1) = [[1, 2, 3], [4]] ∧
    delNums (Demo.serverRun Demo.fullEnv twice).2.eng.log = [(3, 1), (3, 0)] := by decide +kernel

end Verif.Props.Epoch13

import Verif.Lemmas.Dtls
import Verif.Props.Demo13
/-!
# The public type `Dtls`: role switching, version auto-sensing, lives behind the dispatcher
-/
namespace Verif.Props.Dtls
open Verif Verif.Dtls
open Verif.E12 (Call Ret ApiRes Output toApi)

/-! ## A toy configuration -/

/-- Both versions, authentication by certificates, group 29. -/
def demo : Env where
  lim := E13.Demo.cfg
  psk := true
  suites12 := [0xC02B, 0xC0A8]
  suites13 := [0x1301]
  groups := [29]
  isPsk s := s == 0xC0A8
  e12 b := if b then E12.Demo.pskEnv else E12.Demo.certEnv
  e13 := E13.Demo.plainEnv
  back b := if b then E12.Demo.pskEnv else E12.Demo.certEnv
  hyb12 := E12.Demo.certEnv
  hyb13 := E13.Demo.plainEnv
  random := List.replicate 32 7
  kxTick := 1
  kxStart _ := some [5]

/-! ## Role switching -/

/-- A new DTLS 1.2 value in a role. -/
def fresh12 (env : Env) (psk : Bool) (now : Nat) : Bool → Dtls
  | true => some (.client12 (env.e12 psk) (E12.C12.start (env.e12 psk) env.lim12 now))
  | false => some (.server12 (env.e12 psk) (E12.S12.start (env.e12 psk) env.lim12 now))

/-- A new DTLS 1.3 value in a role. -/
def fresh13 (env : Env) (now : Nat) : Bool → Dtls
  | true => some (.client13 env.e13 (E13.C13.start env.e13 env.lim now))
  | false => some (.server13 env.e13 (E13.S13.start env.e13 env.lim now false))

theorem ok_not_ends : ¬ Ends (.res .ok) := by decide

theorem fresh12_switch (env : Env) (psk : Bool) (now : Nat) (a : Bool) (bs : List Bool) :
    run env (fresh12 env psk now a) (bs.map .setActive) =
    (bs.map fun _ => .res .ok, fresh12 env psk now (bs.getLastD a)) := by
  induction bs generalizing a with
  | nil => rfl
  | cons b bs ih =>
    have h : call env (fresh12 env psk now a) (.setActive b) = (.res .ok, fresh12 env psk now b) := by
      cases a <;> cases b <;> rfl
    rw [List.map_cons, run_cons, h, if_neg ok_not_ends, ih]
    rw [List.getLastD_cons]
    rfl

theorem fresh13_switch (env : Env) (now : Nat) (a : Bool) (bs : List Bool) (h : (a :: bs).Pairwise (· ≤ ·)) :
    run env (fresh13 env now a) (bs.map .setActive) =
    (bs.map fun _ => .res .ok, fresh13 env now (bs.getLastD a)) := by
  induction bs generalizing a with
  | nil => rfl
  | cons b bs ih =>
    have hab : a ≤ b := (List.pairwise_cons.mp h).1 b (.head _)
    have hc : call env (fresh13 env now a) (.setActive b) = (.res .ok, fresh13 env now b) := by
      revert hab; cases a <;> cases b <;> intro hab <;> first | rfl | exact absurd hab (by decide)
    rw [List.map_cons, run_cons, hc, if_neg ok_not_ends, ih _ (List.pairwise_cons.mp h).2]
    rw [List.getLastD_cons]
    rfl

/-- Only `ok` in a list of returns. -/
theorem oks_not_ends (bs : List Bool) : ∀ r ∈ (bs.map fun _ => Ret.res .ok), ¬ Ends r := by
  intro r hr
  obtain ⟨_, _, rfl⟩ := List.mem_map.mp hr
  decide

/-- C54 for DTLS 1.2: however often a new value is switched, what it then does is what a session
constructed in the last role does, for every later history: returns and final state agree. -/
theorem switched_like_constructed_12 (env : Env) (psk : Bool) (now : Nat) (bs : List Bool) (cs : List Call) :
    run env (fresh12 env psk now false) (bs.map .setActive ++ cs.map .api) =
    if bs.getLastD false then
      ((bs.map fun _ => .res .ok) ++ (E12.run E12.C12.role (env.e12 psk) (E12.C12.start (env.e12 psk) env.lim12 now) cs).1,
        some (.client12 (env.e12 psk)
          (E12.run E12.C12.role (env.e12 psk) (E12.C12.start (env.e12 psk) env.lim12 now) cs).2))
    else
      ((bs.map fun _ => .res .ok) ++ (E12.run E12.S12.role (env.e12 psk) (E12.S12.start (env.e12 psk) env.lim12 now) cs).1,
        some (.server12 (env.e12 psk)
          (E12.run E12.S12.role (env.e12 psk) (E12.S12.start (env.e12 psk) env.lim12 now) cs).2)) := by
  rw [run_append _ _ _ _ (by rw [fresh12_switch]; exact oks_not_ends bs), fresh12_switch]
  dsimp only
  cases bs.getLastD false with
  | true => rw [if_pos rfl]; unfold fresh12; rw [client12_run]
  | false => rw [if_neg (by decide)]; unfold fresh12; rw [server12_run]

/-- `Dtls::new_12`, `new_12_psk` and `new_auto` with only PSK suites start there. -/
theorem new12_fresh (env : Env) (now : Nat) : new12 env now = fresh12 env false now false := rfl
theorem new12psk_fresh (env : Env) (now : Nat) (d : Dtls) (h : new12psk env now = some d) :
    d = fresh12 env true now false := by
  unfold new12psk at h; split at h
  · exact (Option.some.inj h).symm
  · cases h
theorem newAuto_psk_fresh (env : Env) (now : Nat) (h : env.pskOnly = true) :
    newAuto env now = fresh12 env true now false := by
  unfold newAuto; rw [if_pos h]; rfl

/-- C54 for DTLS 1.3, in part: the same if the value is never switched back to the server's role. -/
theorem switched_like_constructed_13_partial (env : Env) (now : Nat) (bs : List Bool)
    (h : (false :: bs).Pairwise (· ≤ ·)) (cs : List Call) :
    run env (new13 env now) (bs.map .setActive ++ cs.map .api) =
    if bs.getLastD false then
      ((bs.map fun _ => .res .ok) ++ (E13.run E13.C13.role env.e13 (E13.C13.start env.e13 env.lim now) cs).1,
        some (.client13 env.e13 (E13.run E13.C13.role env.e13 (E13.C13.start env.e13 env.lim now) cs).2))
    else
      ((bs.map fun _ => .res .ok) ++ (E13.run E13.S13.role env.e13 (E13.S13.start env.e13 env.lim now false) cs).1,
        some (.server13 env.e13 (E13.run E13.S13.role env.e13 (E13.S13.start env.e13 env.lim now false) cs).2)) := by
  have h0 : new13 env now = fresh13 env now false := rfl
  rw [h0, run_append _ _ _ _ (by rw [fresh13_switch _ _ _ _ h]; exact oks_not_ends bs), fresh13_switch _ _ _ _ h]
  dsimp only
  cases bs.getLastD false with
  | true => rw [if_pos rfl]; unfold fresh13; rw [client13_run]
  | false => rw [if_neg (by decide)]; unfold fresh13; rw [server13_run _ _ _ rfl]

example : (false :: [false, true, true]).Pairwise (· ≤ ·) ∧ [false, true, true].getLastD false = true := by decide

/-- Switched back, a DTLS 1.3 server keeps the engine of a client, so it seals with the client's keys
and opens with the server's, whatever happens later. -/
theorem switched_back_keeps_client (env : Env) (now : Nat) (cs : List Call) :
    ∃ s, run env (new13 env now) ([true, false].map .setActive) =
        ([.res .ok, .res .ok], some (.server13 env.e13 s)) ∧
      (E13.run E13.S13.role env.e13 s cs).2.eng.isClient = true := by
  refine ⟨toServer13 (toClient13 (E13.S13.start env.e13 env.lim now false)), rfl, ?_⟩
  have h : ∀ (cs : List Call) (s : E13.Ses E13.S13.role.St), s.eng.isClient = true →
      (E13.run E13.S13.role env.e13 s cs).2.eng.isClient = true := by
    intro cs
    induction cs with
    | nil => intro s h; exact h
    | cons c cs ih =>
      intro s h
      have h1 : (E13.call E13.S13.role env.e13 s c).2.eng.isClient = true :=
        (E13.call_isClient (E13.S13.roleOk env.e13) s c).trans h
      rw [run13_cons]
      split
      · exact h1
      · exact ih _ h1
  exact h cs _ rfl

/-- The calls of a complete handshake on the server's side. -/
def handshakeCalls : List Call := E13.Demo.serverCalls E13.Demo.plainEnv

/-- C54 is false: on the same calls, a constructed server connects and a server switched back and
forth does not. -/
theorem switched_back_fails :
    .out .connected ∈ (run demo (new13 demo 0) (handshakeCalls.map .api)).1 ∧
    .out .connected ∉ (run demo (new13 demo 0) ([true, false].map .setActive ++ handshakeCalls.map .api)).1 := by
  decide +kernel

/-- The undecided client cannot be switched back at all: `set_active` panics. -/
theorem pending_switch_panics (env : Env) (p : Auto.Pending) (h : Hybrid) :
    call env (some (.clientPending p h)) (.setActive false) = (.res .panic, none) := rfl

/-- A new auto-sensing value becomes that client at once. -/
theorem auto_client_pending (env : Env) (now : Nat) (h : Hybrid) (hp : env.pskOnly = false)
    (hh : env.hybrid = some h) :
    call env (newAuto env now) (.setActive true) =
    (.res .ok, some (.clientPending (Auto.Pending.new h.wire now) h)) := by
  unfold newAuto
  rw [hp]
  simp [call, setActive, isActive, E13.S13.start, E13.Ses.start, hh]

example : demo.pskOnly = false ∧ demo.hybrid ≠ none := by decide +kernel

/-- Data accepted before the switch is gone after it. -/
theorem switch_drops_data (env : Env) (e : E12.PEnv) (s : E12.Ses E12.SSt) :
    ∃ t, setActive env true (some (.server12 e s)) = (true, some (.client12 e t)) ∧ t.queued = [] :=
  ⟨toClient12 s, rfl, rfl⟩

/-! ## Keys go with the role -/

/-- The engine has the role the value shows; `all`: also that of a DTLS 1.3 server. -/
def RoleFits (all : Bool) : Dtls → Prop
  | some (.client12 _ s) => s.eng.isClient = true
  | some (.server12 _ s) => s.eng.isClient = false
  | some (.client13 _ s) => s.eng.isClient = true
  | some (.server13 _ s) => all = true → s.eng.isClient = false
  | _ => True

theorem timeout12_isClient {R : E12.Role} {env : E12.PEnv} (h : E12.RoleOk R env) (now : Nat) (s : E12.Ses R.St) :
    (E12.handleTimeoutM R env now s).2.eng.isClient = s.eng.isClient := E12.call_isClient h s (.timeout now)
theorem packet12_isClient {R : E12.Role} {env : E12.PEnv} (h : E12.RoleOk R env) (p : Bytes) (s : E12.Ses R.St) :
    (E12.handlePacketM R env p s).2.eng.isClient = s.eng.isClient := E12.call_isClient h s (.packet p)
theorem timeout13_isClient {R : E13.Role} {env : E13.PEnv} {k} (h : E13.RoleOk R env k) (now : Nat) (s : E13.Ses R.St) :
    (E13.handleTimeoutM R env now s).2.eng.isClient = s.eng.isClient := E13.call_isClient h s (.timeout now)
theorem packet13_isClient {R : E13.Role} {env : E13.PEnv} {k} (h : E13.RoleOk R env k) (p : Bytes) (s : E13.Ses R.St) :
    (E13.handlePacketM R env p s).2.eng.isClient = s.eng.isClient := E13.call_isClient h s (.packet p)

theorem replay_isClient (e : E12.PEnv) (ps : List Bytes) (s : E12.Ses E12.SSt) :
    (replay e ps s).2.eng.isClient = s.eng.isClient := by
  induction ps generalizing s with
  | nil => rfl
  | cons p ps ih =>
    have h := packet12_isClient (E12.S12.roleOk e) p s
    unfold replay
    split
    · exact (ih _).trans h
    · exact h

theorem fallback_fits (all : Bool) (env : Env) (s : E13.Ses E13.SSt) : RoleFits all (fallback env s).2 := by
  unfold fallback
  split
  · trivial
  · rename_i b _
    dsimp only
    split
    · exact (replay_isClient _ _ _).trans (timeout12_isClient (E12.S12.roleOk _) _ _)
    · trivial

theorem resolve_fits (all : Bool) (env : Env) (p : Bytes) (q : Auto.Pending) (h : Hybrid) : RoleFits all (resolve env p q h).2 := by
  unfold resolve
  split
  · trivial
  · trivial
  · dsimp only
    split
    · exact (packet12_isClient (E12.C12.roleOk _) _ _).trans (timeout12_isClient (E12.C12.roleOk _) _ _)
    · trivial
  · dsimp only
    split
    · exact (packet13_isClient (E13.C13.roleOk _) _ _).trans (timeout13_isClient (E13.C13.roleOk _) _ _)
    · trivial

theorem api_fits (all : Bool) (env : Env) (d : Dtls) (c : Call) (h : RoleFits all d) : RoleFits all (call env d (.api c)).2 := by
  cases d with
  | none => trivial
  | some i =>
    cases i with
    | client12 e s => rw [client12_call]; exact (E12.call_isClient (E12.C12.roleOk e) s c).trans h
    | server12 e s => rw [server12_call]; exact (E12.call_isClient (E12.S12.roleOk e) s c).trans h
    | client13 e s => rw [client13_call]; exact (E13.call_isClient (E13.C13.roleOk e) s c).trans h
    | server13 e s =>
      have hk := fun ha => (E13.call_isClient (E13.S13.roleOk e) s c).trans (h ha)
      cases c with
      | packet p =>
        show RoleFits all (handlePacket env p (.server13 e s)).2
        unfold handlePacket
        dsimp only
        split
        · exact fallback_fits _ _ _
        · exact hk
      | _ =>
        show RoleFits all (if _ then _ else _ : Ret × Dtls).2
        split
        · exact h
        · exact hk
    | clientPending p q =>
      cases c with
      | packet b => exact resolve_fits _ _ _ _ _
      | _ => trivial

theorem setActive_fits (all : Bool) (env : Env) (d : Dtls) (b : Bool) (h : RoleFits all d) (hb : all = true → b = true) :
    RoleFits all (setActive env b d).2 := by
  unfold setActive
  split
  · split
    · rfl
    · intro ha; cases hb ha
    · trivial
  · split
    · rfl
    · split
      · split <;> trivial
      · rfl
    · trivial
  · exact h

/-- Every history of calls, with any number of role switches: the engine of a client has the client's
role, and that of a DTLS 1.2 server the server's. That of a DTLS 1.3 server has it if the value never
was told to be passive. Keys are picked by the engine's role (`Eng.writeKey`, `Eng.peerKey`). -/
theorem role_fits (all : Bool) (env : Env) (d : Dtls) (cs : List DCall) (h : RoleFits all d)
    (hs : all = true → .setActive false ∉ cs) : RoleFits all (run env d cs).2 := by
  induction cs generalizing d with
  | nil => exact h
  | cons c cs ih =>
    have h1 : RoleFits all (call env d c).2 := by
      cases c with
      | api c => exact api_fits all env d c h
      | setActive b =>
        refine setActive_fits all env d b h fun ha => ?_
        cases b with
        | false => exact absurd (.head _) (hs ha)
        | true => rfl
    rw [run_cons]
    split
    · exact h1
    · exact ih _ h1 fun ha hm => hs ha (.tail _ hm)

/-- All constructors give such values. -/
theorem new_fits (env : Env) (now : Nat) : RoleFits true (new12 env now) ∧ RoleFits true (new13 env now) ∧
    RoleFits true (newAuto env now) ∧ ∀ d, new12psk env now = some d → RoleFits true d := by
  refine ⟨rfl, fun _ => rfl, ?_, fun d h => ?_⟩
  · unfold newAuto
    split
    · rfl
    · exact fun _ => rfl
  · rw [new12psk_fresh env now d h]
    rfl

end Verif.Props.Dtls

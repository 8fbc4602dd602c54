import Verif.Lemmas.Ends13
import Verif.Props.Dtls
/-!
# Every call returns

The model gives every loop of the code a number of rounds; a loop that would need more is the result `diverge`. No
call ever has it, in any state of a value, for any datagram.
-/
namespace Verif.Props.Returns
open Verif Verif.Dtls
open Verif.E12 (Call Ret ApiRes Output toApi)

/-! ## Spec -/

/-- A suite adds at most 24 bytes to a DTLS 1.2 record: an explicit nonce of 8 and a tag of 16
(`src/dtls12/context.rs`, `src/crypto/provider.rs`), -/
def Small12 (e : E12.PEnv) : Prop := ∀ suite nonce added, e.suiteParams suite = some (nonce, added) → added ≤ 24

/-- and at most a tag of 16 to a DTLS 1.3 record. -/
def Small13 (e : E13.PEnv) : Prop := ∀ suite tag, e.suiteTag suite = some tag → tag ≤ 16

/-- What the configuration and the suites must be like. -/
structure Sane (env : Env) : Prop where
  mtu : 64 ≤ env.lim.mtu
  e12 : ∀ b, Small12 (env.e12 b)
  back : ∀ b, Small12 (env.back b)
  hyb12 : Small12 env.hyb12
  e13 : Small13 env.e13
  hyb13 : Small13 env.hyb13

/-- The same of what a value carries with it. The states of the handshake, the queues, the keys and everything else
are free. -/
def Holds : Dtls → Prop
  | some (.client12 e s) => Small12 e ∧ 64 ≤ s.eng.cfg.mtu ∧ s.eng.minProt ≤ 24
  | some (.server12 e s) => Small12 e ∧ 64 ≤ s.eng.cfg.mtu ∧ s.eng.minProt ≤ 24
  | some (.client13 e s) => Small13 e ∧ 64 ≤ s.eng.cfg.mtu
  | some (.server13 e s) => Small13 e ∧ 64 ≤ s.eng.cfg.mtu
  | some (.clientPending ..) => True
  | none => True

/-! ## Proof -/

theorem call12 {R : E12.Role} {env : E12.PEnv} {μ} (h : E12.Falls R env μ) (s : E12.Ses R.St)
    (hr : 64 ≤ s.eng.cfg.mtu ∧ s.eng.minProt ≤ 24) (c : Call) :
    (E12.call R env s c).1 ≠ .res .diverge ∧
    64 ≤ (E12.call R env s c).2.eng.cfg.mtu ∧ (E12.call R env s c).2.eng.minProt ≤ 24 := h.call s hr c

theorem call13 {R : E13.Role} {env : E13.PEnv} {μ} (h : E13.Falls R env μ) (s : E13.Ses R.St)
    (hr : 64 ≤ s.eng.cfg.mtu) (c : Call) :
    (E13.call R env s c).1 ≠ .res .diverge ∧ 64 ≤ (E13.call R env s c).2.eng.cfg.mtu := h.call s hr c

theorem res_ne {a : ApiRes} (h : Ret.res a ≠ .res .diverge) : a ≠ .diverge := fun g => h (congrArg Ret.res g)

theorem replay_returns {e : E12.PEnv} (he : Small12 e) (ps : List Bytes) (s : E12.Ses E12.SSt)
    (hr : 64 ≤ s.eng.cfg.mtu ∧ s.eng.minProt ≤ 24) :
    (replay e ps s).1 ≠ .diverge ∧ 64 ≤ (replay e ps s).2.eng.cfg.mtu ∧ (replay e ps s).2.eng.minProt ≤ 24 := by
  induction ps generalizing s with
  | nil => exact ⟨nofun, hr⟩
  | cons p ps ih =>
    obtain ⟨h1, h2⟩ := call12 (E12.S12.falls he) s hr (.packet p)
    unfold replay
    split
    · exact ih _ h2
    · exact ⟨res_ne h1, h2⟩

theorem fallback_returns {env : Env} (hs : Sane env) (s : E13.Ses E13.SSt) :
    (fallback env s).1 ≠ .diverge ∧ Holds (fallback env s).2 := by
  unfold fallback
  split
  · exact ⟨nofun, trivial⟩
  · rename_i b _
    dsimp only
    obtain ⟨h1, h2⟩ := call12 (E12.S12.falls (hs.back b)) (E12.S12.start (env.back b) env.lim12 s.lastNow)
      ⟨hs.mtu, by show 0 ≤ 24; omega⟩ (.timeout s.lastNow)
    split
    · obtain ⟨h3, h4⟩ := replay_returns (hs.back b) s.retained _ h2
      exact ⟨h3, hs.back b, h4⟩
    · exact ⟨res_ne h1, trivial⟩

theorem resolve_returns {env : Env} (hs : Sane env) (p : Bytes) (q : Auto.Pending) (h : Hybrid) :
    (resolve env p q h).1 ≠ .diverge ∧ Holds (resolve env p q h).2 := by
  unfold resolve
  split
  · exact ⟨nofun, trivial⟩
  · exact ⟨nofun, trivial⟩
  · dsimp only
    obtain ⟨h1, h2⟩ := call12 (E12.C12.falls hs.hyb12)
      (E12.C12.startHybrid env.hyb12 env.lim12 h.random h.fragment q.lastNow)
      ⟨hs.mtu, by show 0 ≤ 24; omega⟩ (.timeout q.lastNow)
    split
    · obtain ⟨h3, h4⟩ := call12 (E12.C12.falls hs.hyb12) _ h2 (.packet p)
      exact ⟨res_ne h3, hs.hyb12, h4⟩
    · exact ⟨res_ne h1, trivial⟩
  · dsimp only
    obtain ⟨h1, h2⟩ := call13 (E13.C13.falls hs.hyb13)
      (E13.C13.startHybrid env.hyb13 env.lim h.random h.transcript h.kx q.lastNow) hs.mtu (.timeout q.lastNow)
    split
    · obtain ⟨h3, h4⟩ := call13 (E13.C13.falls hs.hyb13) _ h2 (.packet p)
      exact ⟨res_ne h3, hs.hyb13, h4⟩
    · exact ⟨res_ne h1, trivial⟩

theorem api_returns {env : Env} (hs : Sane env) (d : Dtls) (c : Call) (h : Holds d) :
    (call env d (.api c)).1 ≠ .res .diverge ∧ Holds (call env d (.api c)).2 := by
  cases d with
  | none => exact ⟨nofun, trivial⟩
  | some i =>
    cases i with
    | client12 e s =>
      rw [client12_call]
      obtain ⟨h1, h2⟩ := call12 (E12.C12.falls h.1) s h.2 c
      exact ⟨h1, h.1, h2⟩
    | server12 e s =>
      rw [server12_call]
      obtain ⟨h1, h2⟩ := call12 (E12.S12.falls h.1) s h.2 c
      exact ⟨h1, h.1, h2⟩
    | client13 e s =>
      rw [client13_call]
      obtain ⟨h1, h2⟩ := call13 (E13.C13.falls h.1) s h.2 c
      exact ⟨h1, h.1, h2⟩
    | server13 e s =>
      obtain ⟨h1, h2⟩ := call13 (E13.S13.falls h.1) s h.2 c
      cases c with
      | packet p =>
        show Ret.res (handlePacket env p (.server13 e s)).1 ≠ _ ∧ Holds (handlePacket env p (.server13 e s)).2
        unfold handlePacket
        dsimp only
        split
        · obtain ⟨h3, h4⟩ := fallback_returns hs (E13.handlePacketM E13.S13.role e p s).2
          exact ⟨fun g => h3 (by injection g), h4⟩
        · exact ⟨h1, h.1, h2⟩
      | _ =>
        show (if _ then _ else _ : Ret × Dtls).1 ≠ _ ∧ Holds (if _ then _ else _ : Ret × Dtls).2
        split
        · exact ⟨nofun, h⟩
        · exact ⟨h1, h.1, h2⟩
    | clientPending p q =>
      cases c with
      | packet b =>
        obtain ⟨h3, h4⟩ := resolve_returns hs b p q
        exact ⟨fun g => h3 (by injection g), h4⟩
      | timeout now =>
        refine ⟨?_, trivial⟩
        show Ret.res (if _ then _ else _) ≠ _
        split <;> nofun
      | _ => exact ⟨nofun, trivial⟩

theorem setActive_returns (env : Env) (d : Dtls) (b : Bool) (h : Holds d) : Holds (setActive env b d).2 := by
  unfold setActive
  split
  · split
    · exact h
    · exact h
    · trivial
  · split
    · exact h
    · split
      · split <;> trivial
      · exact h
    · trivial
  · exact h

/-! ## Theorems -/

/-- **C65.** Whatever state a value is in, every call of its API returns, with any datagram and at any time; and what
it leaves is again such a value. -/
theorem every_call_returns {env : Env} (hs : Sane env) (d : Dtls) (c : DCall) (h : Holds d) :
    (call env d c).1 ≠ .res .diverge ∧ Holds (call env d c).2 := by
  cases c with
  | api c => exact api_returns hs d c h
  | setActive b =>
    refine ⟨?_, setActive_returns env d b h⟩
    show Ret.res (if _ then _ else _) ≠ _
    split <;> nofun

theorem run_returns {env : Env} (hs : Sane env) (cs : List DCall) :
    ∀ d, Holds d → .res .diverge ∉ (run env d cs).1 := by
  induction cs with
  | nil => intro d _ h; cases h
  | cons c cs ih =>
    intro d h
    obtain ⟨h1, h2⟩ := every_call_returns hs d c h
    rw [run_cons]
    split
    · exact fun hm => h1 (List.mem_singleton.mp hm).symm
    · intro hm
      rcases List.mem_cons.mp hm with hm | hm
      · exact h1 hm.symm
      · exact ih _ h2 hm

/-- What the constructors give holds. -/
theorem new_holds {env : Env} (hs : Sane env) (now : Nat) : Holds (new12 env now) ∧ Holds (new13 env now) ∧
    Holds (newAuto env now) ∧ ∀ d, new12psk env now = some d → Holds d := by
  have h0 : 0 ≤ 24 := by omega
  refine ⟨⟨hs.e12 _, hs.mtu, h0⟩, ⟨hs.e13, hs.mtu⟩, ?_, fun d h => ?_⟩
  · unfold newAuto
    split
    · exact ⟨hs.e12 _, hs.mtu, h0⟩
    · exact ⟨hs.e13, hs.mtu⟩
  · unfold new12psk at h
    split at h
    · injection h with h
      rw [← h]
      exact ⟨hs.e12 _, hs.mtu, h0⟩
    · cases h

/-- **C65.** A value of a built configuration never hangs, however it was made and whatever is called on it. -/
theorem never_hangs {b : Config.Builder} {p : Config.Provider} {c : Config.Config} (hb : Config.build b p = .ok c)
    {env : Env} (hm : env.lim.mtu = c.mtu) (h12 : ∀ b, Small12 (env.e12 b)) (hback : ∀ b, Small12 (env.back b))
    (hh12 : Small12 env.hyb12) (h13 : Small13 env.e13) (hh13 : Small13 env.hyb13) (now : Nat) (d : Dtls)
    (hd : d = new12 env now ∨ new12psk env now = some d ∨ d = new13 env now ∨ d = newAuto env now)
    (cs : List DCall) : .res .diverge ∉ (run env d cs).1 := by
  obtain ⟨_, hu, rfl⟩ := (Props.Config.build_iff_usable b p c).1 hb
  have hs : Sane env := ⟨by rw [hm]; exact hu.mtu, h12, hback, hh12, h13, hh13⟩
  obtain ⟨h1, h2, h3, h4⟩ := new_holds hs now
  rcases hd with rfl | hd | rfl | rfl
  · exact run_returns hs cs _ h1
  · exact run_returns hs cs _ (h4 d hd)
  · exact run_returns hs cs _ h2
  · exact run_returns hs cs _ h3

/-- The number of rounds the model gives the loop of `make_progress` makes no difference: any greater number gives the
same result. -/
theorem rounds_do_not_matter (n : Nat) (hn : 40 ≤ n) :
    (∀ (env : E12.PEnv) (s : E12.Ses E12.CSt), Small12 env → 64 ≤ s.eng.cfg.mtu → s.eng.minProt ≤ 24 →
      E12.progress E12.C12.role env n s = E12.progress E12.C12.role env E12.progressFuel s) ∧
    (∀ (env : E12.PEnv) (s : E12.Ses E12.SSt), Small12 env → 64 ≤ s.eng.cfg.mtu → s.eng.minProt ≤ 24 →
      E12.progress E12.S12.role env n s = E12.progress E12.S12.role env E12.progressFuel s) ∧
    (∀ (env : E13.PEnv) (s : E13.Ses E13.CSt), Small13 env → 64 ≤ s.eng.cfg.mtu →
      E13.progress E13.C13.role env n s = E13.progress E13.C13.role env E13.progressFuel s) ∧
    (∀ (env : E13.PEnv) (s : E13.Ses E13.SSt), Small13 env → 64 ≤ s.eng.cfg.mtu →
      E13.progress E13.S13.role env n s = E13.progress E13.S13.role env E13.progressFuel s) := by
  refine ⟨?_, ?_, ?_, ?_⟩
  · intro env s he hm hp
    have h := E12.C12.falls he
    exact h.fuel n _ s ⟨hm, hp⟩ (Nat.lt_of_lt_of_le (h.low s) hn) (h.low s)
  · intro env s he hm hp
    have h := E12.S12.falls he
    exact h.fuel n _ s ⟨hm, hp⟩ (Nat.lt_of_lt_of_le (h.low s) hn) (h.low s)
  · intro env s he hm
    have h := E13.C13.falls he
    exact h.fuel n _ s hm (Nat.lt_of_lt_of_le (h.low s) hn) (h.low s)
  · intro env s he hm
    have h := E13.S13.falls he
    exact h.fuel n _ s hm (Nat.lt_of_lt_of_le (h.low s) hn) (h.low s)

/-! ## Concrete cases -/

theorem demo_sane : Sane Props.Dtls.demo := by
  have h12 : ∀ b, Small12 (if b = true then E12.Demo.pskEnv else E12.Demo.certEnv) := by
    intro b suite nonce added h
    have h : E12.Demo.params suite = some (nonce, added) := by cases b <;> exact h
    unfold E12.Demo.params at h
    split at h
    · cases h; omega
    split at h
    · cases h; omega
    · cases h
  have h13 : Small13 E13.Demo.plainEnv := by
    intro suite tag h
    have h : (if suite = 0x1301 then some 1 else none) = some tag := h
    split at h
    · cases h; omega
    · cases h
  exact ⟨by decide, h12, h12, h12 false, h13, h13⟩

/-- A server that goes through a whole DTLS 1.3 handshake with the calls of the example, then meets rubbish, a timeout
and a close, is among the values meant. -/
example : Sane Props.Dtls.demo ∧ Holds (new13 Props.Dtls.demo 0) ∧
    (run Props.Dtls.demo (new13 Props.Dtls.demo 0)
      ((E13.Demo.serverCalls E13.Demo.plainEnv ++ ([.packet [1, 2, 3], .timeout 99, .close] : List Call)).map .api)).1.length =
    (E13.Demo.serverCalls E13.Demo.plainEnv).length + 3 :=
  ⟨demo_sane, (new_holds demo_sane 0).2.1, by decide +kernel⟩

end Verif.Props.Returns

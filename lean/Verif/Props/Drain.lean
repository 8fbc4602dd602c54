import Verif.Props.Drain12
import Verif.Props.Drain13
import Verif.Props.App12
import Verif.Props.App13
/-!
# Polling comes to an end: concrete cases

A server that was sent two pieces of data and a close_notify and was not polled since; and one that was not polled
during the whole handshake.
-/
namespace Verif.Props.Drain
open Verif

def case12 (env : E12.PEnv) : E12.Ses E12.SSt :=
  (E12.Demo.serverRun env ((E12.Demo.clientSays env
    [.send [1, 2, 3], .poll 2000, .send [4], .poll 2000, .close, .poll 2000]).map .packet)).2

/-- Both pieces, the answering close_notify and the report of the other wait. -/
theorem case12_waits : ((V12.waiting (case12 E12.Demo.pskEnv)).take 2, (V12.waiting (case12 E12.Demo.pskEnv)).drop 3) =
    ([.eng (.appData [1, 2, 3]), .eng (.appData [4])], [.eng .closeNotify]) := by decide +kernel

theorem case12_sizes : (V12.waiting (case12 E12.Demo.pskEnv)).map V12.size = [3, 1, 24, 0] := by decide +kernel

theorem fits {α : Type} {f : α → Nat} {l : List α} {m : List Nat} {n : Nat} (h : l.map f = m) (hm : ∀ x ∈ m, x ≤ n) :
    ∀ o ∈ l, f o ≤ n := fun _ ho => hm _ (h ▸ List.mem_map_of_mem ho)

/-- With a buffer of 2 bytes the first does not fit. -/
theorem case12_small : (E12.pollM E12.S12.role 2 (case12 E12.Demo.pskEnv)).1 = .eng (.bufferTooSmall 3) := by
  decide +kernel

theorem drains12 {env : E12.PEnv} {cfg : E12.Cfg} {s : E12.Ses E12.SSt} {cs : List E12.Call}
    (hs : s = (E12.run E12.S12.role env (E12.S12.start env cfg 0) cs).2) (hd : E12.DecShort env.toEnv) (n : Nat)
    (h : ∀ o ∈ V12.waiting s, V12.size o ≤ n) :
    ∃ t, ∀ k, (E12.run E12.S12.role env s (List.replicate k (.poll n))).1 =
      ((V12.waiting s ++ List.replicate k (E12.Output.eng (.timeout t))).take k).map .out := by
  subst hs
  exact V12.drains (.server 0) hd cs n h

theorem case12_run (env : E12.PEnv) : case12 env = (E12.run E12.S12.role env (E12.S12.start env E12.Demo.cfg 0)
    (E12.Demo.serverCalls env ++ (E12.Demo.clientSays env
      [.send [1, 2, 3], .poll 2000, .send [4], .poll 2000, .close, .poll 2000]).map .packet)).2 := by
  unfold case12 E12.Demo.serverRun
  rfl

theorem case12_drains {env : E12.PEnv} (hd : E12.DecShort env.toEnv) (n : Nat)
    (h : ∀ o ∈ V12.waiting (case12 env), V12.size o ≤ n) :
    ∃ t, ∀ k, (E12.run E12.S12.role env (case12 env) (List.replicate k (.poll n))).1 =
      ((V12.waiting (case12 env) ++ List.replicate k (E12.Output.eng (.timeout t))).take k).map .out :=
  drains12 (case12_run env) hd n h

/-- So `drains` applies with a buffer of 24 bytes. -/
example : ∃ t, ∀ k, (E12.run E12.S12.role E12.Demo.pskEnv (case12 E12.Demo.pskEnv) (List.replicate k (.poll 24))).1 =
    ((V12.waiting (case12 E12.Demo.pskEnv) ++ List.replicate k (E12.Output.eng (.timeout t))).take k).map .out :=
  case12_drains (App12.dec_short_demo _ _ _ _) 24 (fits case12_sizes (by decide))

/-- The same in DTLS 1.3. -/
def case13 (env : E13.PEnv) : E13.Ses E13.SSt :=
  (E13.Demo.serverRun env ((E13.Demo.clientSays env
    [.send [1, 2, 3], .poll 2000, .send [4], .poll 2000, .close, .poll 2000]).map .packet)).2

theorem case13_waits : V13.waiting (case13 E13.Demo.fullEnv) =
    [.eng (.appData [1, 2, 3]), .eng (.appData [4]), .eng .closeNotify] := by decide +kernel

/-- The whole handshake without a poll. -/
def unpolled (env : E13.PEnv) : E13.Ses E13.SSt :=
  (E13.run E13.S13.role env (E13.S13.start env E13.Demo.cfg 0 false)
    ((E13.Demo.serverCalls env).filter (· ≠ .poll 2000))).2

/-- The certificate and Connected come first. -/
theorem unpolled_waits : (V13.waiting (unpolled E13.Demo.fullEnv)).take 2 = [.peerCert [77, 78], .connected] := by
  decide +kernel

/-- With a buffer of 1 byte the certificate does not fit. -/
theorem unpolled_panics : (E13.pollM E13.S13.role 1 (unpolled E13.Demo.fullEnv)).1 = .panic := by decide +kernel

theorem drains13 {env : E13.PEnv} {cfg : E13.Cfg} {s : E13.Ses E13.SSt} {cs : List E12.Call}
    (hs : s = (E13.run E13.S13.role env (E13.S13.start env cfg 0 false) cs).2) (n : Nat)
    (h : ∀ o ∈ V13.waiting s, V13.size o ≤ n) :
    ∃ t, ∀ k, (E13.run E13.S13.role env s (List.replicate k (.poll n))).1 =
      ((V13.waiting s ++ List.replicate k (E12.Output.eng (.timeout t))).take k).map .out := by
  subst hs
  exact V13.drains (.server 0 false) cs n h

theorem case13_run (env : E13.PEnv) : case13 env = (E13.run E13.S13.role env (E13.S13.start env E13.Demo.cfg 0 false)
    (E13.Demo.serverCalls env ++ (E13.Demo.clientSays env
      [.send [1, 2, 3], .poll 2000, .send [4], .poll 2000, .close, .poll 2000]).map .packet)).2 := by
  unfold case13 E13.Demo.serverRun
  rfl

theorem case13_drains {env : E13.PEnv} (n : Nat) (h : ∀ o ∈ V13.waiting (case13 env), V13.size o ≤ n) :
    ∃ t, ∀ k, (E13.run E13.S13.role env (case13 env) (List.replicate k (.poll n))).1 =
      ((V13.waiting (case13 env) ++ List.replicate k (E12.Output.eng (.timeout t))).take k).map .out :=
  drains13 (case13_run env) n h

example : ∃ t, ∀ k, (E13.run E13.S13.role E13.Demo.fullEnv (case13 E13.Demo.fullEnv) (List.replicate k (.poll 3))).1 =
    ((V13.waiting (case13 E13.Demo.fullEnv) ++ List.replicate k (E12.Output.eng (.timeout t))).take k).map .out :=
  case13_drains 3 (by rw [case13_waits]; decide)

end Verif.Props.Drain

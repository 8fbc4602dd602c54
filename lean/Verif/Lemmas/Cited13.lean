import Verif.Lemmas.Run13
/-!
# A certificate that is to be reported is there: DTLS 1.3
-/
namespace Verif.E13
open Verif Wire Window Timer Aead M
open Verif.E12 (Call)

section
variable {St : Type}

/-- Where a certificate is to be reported there is one. -/
def Cited (s : Ses St) : Prop := .peerCert ∈ s.events → s.peerCerts ≠ []

/-- `m` keeps it so. -/
def Cites {α : Type} (m : P St α) : Prop := ∀ s, Cited s → Cited (m s).2

variable {α β : Type}

theorem Cites.pure (a : α) : Cites (M.pure a : P St α) := fun _ => id
theorem Cites.get : Cites (M.get : P St (Ses St)) := fun _ => id
theorem Cites.fatal (e : Error) : Cites (M.fatal e : P St α) := fun _ => id
theorem Cites.transient : Cites (M.transient : P St α) := fun _ => id
theorem Cites.panic : Cites (M.panic : P St α) := fun _ => id
theorem Cites.bind {m : P St α} {f : α → P St β} (h : Cites m) (g : ∀ a, Cites (f a)) : Cites (M.bind m f) := by
  intro s hs
  have h2 := h s hs
  unfold M.bind M.andThen
  split
  · rename_i a s' hm
    rw [hm] at h2
    exact g _ _ h2
  · rename_i e s' hm
    rw [hm] at h2
    exact h2
theorem Cites.modify {f : Ses St → Ses St} (h : ∀ s, Cited s → Cited (f s)) : Cites (M.modify f) := h
theorem Cites.check (c : Bool) (e : Error) : Cites (check c e : P St Unit) := by
  unfold E13.check; split
  · exact .pure _
  · exact .fatal _
theorem Cites.checked {c : Bool} {e : Error} {f : Unit → P St α} (h : c = true → Cites (f ())) :
    Cites (M.bind (E13.check c e) f) := by
  unfold E13.check; split
  · exact .bind (.pure _) fun _ => h ‹_›
  · exact fun _ h => h
theorem Cites.orFatal (o : Option α) (e : Error) : Cites (orFatal o e : P St α) := by
  cases o
  · exact .fatal _
  · exact .pure _
theorem Cites.orPanic (o : Option α) : Cites (orPanic o : P St α) := by
  cases o
  · exact .panic
  · exact .pure _
theorem Cites.orTransient (o : Option α) : Cites (orTransient o : P St α) := by
  cases o
  · exact .transient
  · exact .pure _
theorem Cites.onEng (m : E α) : Cites (E13.onEng m : P St α) := fun _ h => h
theorem Cites.onEng' (f : Eng → Eng) : Cites (E13.onEng' f : P St Unit) := fun _ h => h
theorem Cites.drawTick : Cites (drawTick : P St Nat) := fun _ h => h
theorem Cites.setSuite (n) : Cites (setSuite n : P St Unit) := fun _ h => h
theorem Cited.tell {s : Ses St} (h : Cited s) (e : Event) (he : e ≠ .peerCert) :
    Cited { s with events := s.events ++ [e] } := by
  intro hm
  rcases List.mem_append.mp hm with hm | hm
  · exact h hm
  · exact absurd (List.mem_singleton.mp hm).symm he
theorem Cited.more {s : Ses St} (c : List Bytes) (hc : c ≠ []) (l : List Event) :
    Cited { s with peerCerts := s.peerCerts ++ c, events := l } := by
  intro _ h
  exact hc (List.append_eq_nil_iff.mp h).2

end

/-- Prove `Cites` of a function by its syntax. -/
macro "cites13" : tactic => `(tactic|
  repeat' first
    | with_reducible exact Cites.pure _
    | with_reducible exact Cites.get
    | with_reducible exact Cites.fatal _
    | with_reducible exact Cites.transient
    | with_reducible exact Cites.panic
    | with_reducible exact Cites.check _ _
    | with_reducible exact Cites.orFatal _ _
    | with_reducible exact Cites.orPanic _
    | with_reducible exact Cites.orTransient _
    | with_reducible exact Cites.onEng _
    | with_reducible exact Cites.onEng' _
    | with_reducible exact Cites.drawTick
    | with_reducible exact Cites.setSuite _
    | (with_reducible refine Cites.modify ?_) <;> exact fun _ h => h
    | (with_reducible refine Cites.modify ?_) <;> exact fun _ h => h.tell _ nofun
    | assumption
    | with_reducible refine Cites.bind ?_ (fun _ => ?_)
    | split)

section shared
variable {St : Type} {env : PEnv}

theorem computeVerify_cites (b) : Cites (computeVerify env b : P St Bytes) := by
  unfold computeVerify; simp only [bind_eq]; cites13
theorem installHandshake_cites (b) : Cites (installHandshake env b : P St Unit) := by
  unfold installHandshake; simp only [bind_eq]; cites13
theorem installApplication_cites : Cites (installApplication env : P St Unit) := by
  unfold installApplication; simp only [bind_eq]; cites13
theorem certificateVerifyBody_cites (b) : Cites (certificateVerifyBody env b : P St Bytes) := by
  unfold certificateVerifyBody; simp only [bind_eq, pure_eq]; cites13
theorem awaitCertificateVerify_cites (b) (x y : St) : Cites (awaitCertificateVerify env b x y) := by
  unfold awaitCertificateVerify; simp only [bind_eq, pure_eq]; cites13
theorem announceConnected_cites (f : Eng → Eng) (a : St) :
    Cites (announceConnected env f a) := by
  unfold announceConnected; simp only [bind_eq, pure_eq]; cites13
theorem drainLoop_cites (ep) (l : List Bytes) : Cites (drainLoop env ep l : P St Unit) := by
  induction l with
  | nil => exact .pure _
  | cons d rest ih => unfold drainLoop sendApp; simp only [bind_eq]; cites13
theorem awaitApplicationData_cites (a : St) : Cites (awaitApplicationData env a) := by
  have h : Cites (drainQueued env : P St Unit) :=
    fun s g => drainLoop_cites (env := env) s.eng.appEpoch s.queued { s with queued := [] } g
  unfold awaitApplicationData autoKeyUpdate respondKeyUpdate takeKeyUpdate; simp only [bind_eq, pure_eq]
  cites13
theorem halfClosedLocal_cites (a b : St) : Cites (halfClosedLocal env a b) := by
  unfold halfClosedLocal; simp only [bind_eq, pure_eq]; cites13
end shared

namespace C13
variable {env : PEnv}

theorem retryExtensions_cites (l) : Cites (retryExtensions env l) := by
  induction l with
  | nil => exact .pure _
  | cons x rest ih =>
    obtain ⟨t, d⟩ := x
    unfold retryExtensions
    simp only [bind_eq]
    cites13

theorem encryptedExtensions_cites (l) : Cites (encryptedExtensions env l) := by
  induction l with
  | nil => exact .pure _
  | cons x rest ih =>
    obtain ⟨t, d⟩ := x
    unfold encryptedExtensions
    simp only [bind_eq]
    cites13

theorem helloRetry_cites (n h) : Cites (helloRetry env n h) := by
  have h1 := fun l => retryExtensions_cites (env := env) l
  unfold helloRetry; simp only [bind_eq, pure_eq]; cites13
  exact h1 _

theorem serverHello_cites (h) : Cites (serverHello env h) := by
  have h2 := fun b => installHandshake_cites (St := CSt) (env := env) b
  unfold serverHello; simp only [bind_eq, pure_eq]; cites13
  exact h2 _

theorem step_cites (st : CSt) : Cites (C13.step env st) := by
  have h1 := fun n h => helloRetry_cites (env := env) n h
  have h2 := fun h => serverHello_cites (env := env) h
  have h3 := fun l => encryptedExtensions_cites (env := env) l
  have h4 := fun b => computeVerify_cites (St := CSt) (env := env) b
  have h5 := installApplication_cites (St := CSt) (env := env)
  have h6 := fun b => certificateVerifyBody_cites (St := CSt) (env := env) b
  cases st
  all_goals unfold step
  · unfold sendClientHello; simp only [bind_eq, pure_eq]; cites13
  · unfold awaitServerHello; simp only [bind_eq, pure_eq]; cites13
    · exact h1 _ _
    · exact h2 _
  · unfold awaitEncryptedExtensions; simp only [bind_eq, pure_eq]; cites13; exact h3 _
  · unfold awaitCertificateRequest; simp only [bind_eq, pure_eq]; cites13
  · unfold awaitCertificate; simp only [bind_eq, pure_eq]
    refine .bind (.onEng _) fun m => ?_
    split
    · exact .pure _
    · refine .checked fun _ => .checked fun hc => .bind ?_ fun _ => .bind (.onEng _) fun _ => .pure _
      exact fun s _ => Cited.more _ (fun g => by rw [g] at hc; cases hc) _
    · exact .panic
  · exact awaitCertificateVerify_cites (env := env) _ _ _
  · unfold awaitFinished; simp only [bind_eq, pure_eq]; cites13; exact h4 _
  · unfold sendCertificate; simp only [bind_eq, pure_eq]; cites13
  · unfold sendCertificateVerify; simp only [bind_eq, pure_eq]; cites13; exact h6 _
  · unfold sendFinished; simp only [bind_eq]; cites13
    all_goals first | exact h4 _ | exact announceConnected_cites _ _
  · exact awaitApplicationData_cites (env := env) _
  · exact halfClosedLocal_cites (env := env) _ _
  · exact .pure _

end C13

namespace S13
variable {env : PEnv}

theorem clientExtensions_cites (l x) : Cites (clientExtensions env l x) := by
  induction l generalizing x with
  | nil => exact .pure _
  | cons e rest ih =>
    obtain ⟨t, d⟩ := e
    unfold clientExtensions
    simp only [bind_eq]
    cites13
    all_goals exact ih _

theorem sendRetry_cites (a b c) : Cites (sendRetry env a b c) := by
  unfold sendRetry; simp only [bind_eq, pure_eq]; cites13
theorem acceptClientHello_cites (a b c) : Cites (acceptClientHello env a b c) := by
  unfold acceptClientHello; simp only [bind_eq, pure_eq]; cites13
theorem chooseShare_cites (a b c) : Cites (chooseShare env a b c) := by
  have h1 := fun a b c => sendRetry_cites (env := env) a b c
  have h2 := fun a b c => acceptClientHello_cites (env := env) a b c
  unfold chooseShare; simp only [bind_eq]; cites13
  · exact h2 _ _ _
  · exact h1 _ _ _
theorem checkCookie_cites (a b c d) : Cites (checkCookie env a b c d) := by
  have h1 := fun a b c => sendRetry_cites (env := env) a b c
  have h2 := fun a b c => chooseShare_cites (env := env) a b c
  unfold checkCookie; simp only [bind_eq, pure_eq]; cites13
  all_goals first | exact h1 _ _ _ | exact h2 _ _ _
theorem clientHello_cites (a b) : Cites (clientHello env a b) := by
  have h1 := fun l b => clientExtensions_cites (env := env) l b
  have h2 := fun a b c d => checkCookie_cites (env := env) a b c d
  unfold clientHello; simp only [bind_eq]; cites13
  all_goals first | exact h1 _ _ | exact h2 _ _ _ _

theorem step_cites (st : SSt) : Cites (S13.step env st) := by
  have h1 := fun a b => clientHello_cites (env := env) a b
  have h2 := fun b => installHandshake_cites (St := SSt) (env := env) b
  have h4 := fun b => computeVerify_cites (St := SSt) (env := env) b
  have h5 := installApplication_cites (St := SSt) (env := env)
  have h6 := fun b => certificateVerifyBody_cites (St := SSt) (env := env) b
  cases st
  all_goals unfold step
  · unfold awaitClientHello; simp only [bind_eq, pure_eq]; cites13; exact h1 _ _
  · unfold sendServerHello; simp only [bind_eq, pure_eq]; cites13; exact h2 _
  · unfold sendEncryptedExtensions; simp only [bind_eq, pure_eq]; cites13
  · unfold sendCertificateRequest; simp only [bind_eq, pure_eq]; cites13
  · unfold sendCertificate; simp only [bind_eq, pure_eq]; cites13
  · unfold sendCertificateVerify; simp only [bind_eq, pure_eq]; cites13; exact h6 _
  · unfold sendFinished; simp only [bind_eq, pure_eq]; cites13; exact h4 _
  · unfold awaitCertificate; simp only [bind_eq, pure_eq]; cites13
    rename_i hc
    exact fun s _ => Cited.more _ hc _
  · exact awaitCertificateVerify_cites (env := env) _ _ _
  · unfold awaitFinished; simp only [bind_eq, pure_eq]; cites13
    all_goals first | exact h4 _ | exact announceConnected_cites _ _
  · exact awaitApplicationData_cites (env := env) _
  · exact halfClosedLocal_cites (env := env) _ _
  · exact .pure _

end S13


section
variable {R : Role} {env : PEnv}

theorem progress_cites (h : ∀ st, Cites (R.step env st)) (n : Nat) : Cites (progress R env n) := by
  induction n with
  | zero => exact fun _ => id
  | succ n ih =>
    unfold progress
    simp only [bind_eq, pure_eq]
    refine .bind .get fun s => .bind (h _) fun new => ?_
    split
    · exact .pure _
    · exact .bind (.modify fun _ h => h) fun _ => ih

theorem noteTime_cited (env : PEnv) (n : Nat) {s : Ses R.St} (h : Cited s) : Cited (noteTime R env n s) := by
  unfold noteTime
  split <;> exact h

theorem pollM_cited (n : Nat) {s : Ses R.St} (h : Cited s) : Cited (pollM R n s).2 := by
  unfold pollM
  split
  · rename_i e rest he
    exact fun hm => h (he ▸ List.mem_cons_of_mem _ hm)
  · exact h

theorem call_cited (h : ∀ st, Cites (R.step env st)) (s : Ses R.St) (c : Call) (hs : Cited s) :
    Cited (call R env s c).2 := by
  cases c with
  | packet p =>
    have : Cites (handlePacketM R env p) := by
      have last : Cites (M.modify fun s : Ses R.St =>
          if s.autoMode && !R.first s.st then { s with retained := [], autoMode := false } else s) := by
        intro s hs
        show Cited (if _ then _ else _)
        split <;> exact hs
      have rest : Cites (M.bind (onEng (parsePacket env.toEnv p)) fun _ => M.bind (progress R env progressFuel) fun _ =>
          M.modify fun s : Ses R.St =>
            if s.autoMode && !R.first s.st then { s with retained := [], autoMode := false } else s) :=
        .bind (.onEng _) fun _ => .bind (progress_cites h progressFuel) fun _ => last
      unfold handlePacketM
      simp only [bind_eq]
      refine .bind .get fun s => ?_
      split
      · split
        · exact .bind (.fatal _) fun _ => rest
        · exact .bind (.modify fun _ h => h) fun _ => rest
      · exact rest
    exact this s hs
  | timeout n =>
    have : Cites (handleTimeoutM R env n) := by
      unfold handleTimeoutM
      simp only [bind_eq]
      exact .bind (.modify fun _ h => noteTime_cited env n h) fun _ => .bind (.onEng _) fun _ => progress_cites h _
    exact this s hs
  | send d =>
    have : Cites (sendM R env d) := by
      unfold sendM sendApp
      simp only [bind_eq]
      cites13
    exact this s hs
  | close =>
    have : Cites (closeM R env) := by
      unfold closeM
      simp only [bind_eq, pure_eq]
      cites13
    exact this s hs
  | poll n => exact pollM_cited n hs

theorem run_cited (h : ∀ st, Cites (R.step env st)) (cs : List Call) : ∀ s, Cited s → Cited (run R env s cs).2 := by
  induction cs with
  | nil => exact fun _ => id
  | cons c cs ih =>
    intro s hs
    have h1 := call_cited h s c hs
    unfold run
    dsimp only
    split
    · exact h1
    · exact ih _ h1

theorem Start.cited {cfg : Cfg} {s0 : Ses R.St} (h : Start env cfg R s0) (cs : List Call) :
    Cited (run R env s0 cs).2 := by
  cases h
  · exact run_cited C13.step_cites cs _ nofun
  · exact run_cited C13.step_cites cs _ nofun
  · exact run_cited S13.step_cites cs _ nofun
end

end Verif.E13

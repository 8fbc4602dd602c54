import Verif.Lemmas.Start12
/-!
# A certificate that is to be reported is there: DTLS 1.2
-/
namespace Verif.E12
open Verif Wire Window Timer Aead M

section
variable {St : Type}

/-- Where a certificate is to be reported there is one. -/
def Cited (s : Ses St) : Prop := .peerCert ∈ s.events → s.peerCerts ≠ []

/-- `m` keeps it so. -/
def Cites {α : Type} (m : P St α) : Prop := ∀ s, Cited s → Cited (m s).2

variable {α β : Type}

theorem Cites.pure (a : α) : Cites (M.pure a : P St α) := fun _ => id
theorem Cites.get : Cites (M.get : P St (Ses St)) := fun _ => id
theorem Cites.fatal (e : Error) : Cites (M.fatal e : P St α) := fun _ => id
theorem Cites.transient : Cites (M.transient : P St α) := fun _ => id
theorem Cites.panic : Cites (M.panic : P St α) := fun _ => id
theorem Cites.bind {m : P St α} {f : α → P St β} (h : Cites m) (g : ∀ a, Cites (f a)) : Cites (M.bind m f) := by
  intro s hs
  have h2 := h s hs
  unfold M.bind M.andThen
  split
  · rename_i a s' hm
    rw [hm] at h2
    exact g _ _ h2
  · rename_i e s' hm
    rw [hm] at h2
    exact h2
theorem Cites.modify {f : Ses St → Ses St} (h : ∀ s, Cited s → Cited (f s)) : Cites (M.modify f) := h
theorem Cites.check (c : Bool) (e : Error) : Cites (check c e : P St Unit) := by
  unfold E12.check; split
  · exact .pure _
  · exact .fatal _
theorem Cites.checked {c : Bool} {e : Error} {f : Unit → P St α} (h : c = true → Cites (f ())) :
    Cites (M.bind (E12.check c e) f) := by
  unfold E12.check; split
  · exact .bind (.pure _) fun _ => h ‹_›
  · exact fun _ h => h
theorem Cites.orFatal (o : Option α) (e : Error) : Cites (orFatal o e : P St α) := by
  cases o
  · exact .fatal _
  · exact .pure _
theorem Cites.orPanic (o : Option α) : Cites (orPanic o : P St α) := by
  cases o
  · exact .panic
  · exact .pure _
theorem Cites.orTransient (o : Option α) : Cites (orTransient o : P St α) := by
  cases o
  · exact .transient
  · exact .pure _
theorem Cites.onEng (m : E α) : Cites (E12.onEng m : P St α) := fun _ h => h
theorem Cites.onEng' (f : Eng → Eng) : Cites (E12.onEng' f : P St Unit) := fun _ h => h
theorem Cites.drawTick : Cites (drawTick : P St Nat) := fun _ h => h
theorem Cited.tell {s : Ses St} (h : Cited s) (e : Event) (he : e ≠ .peerCert) :
    Cited { s with events := s.events ++ [e] } := by
  intro hm
  rcases List.mem_append.mp hm with hm | hm
  · exact h hm
  · exact absurd (List.mem_singleton.mp hm).symm he
theorem Cited.more {s : Ses St} (c : List Bytes) (hc : c ≠ []) (l : List Event) :
    Cited { s with peerCerts := s.peerCerts ++ c, events := l } := by
  intro _ h
  exact hc (List.append_eq_nil_iff.mp h).2

end

/-- Prove `Cites` of a function by its syntax. -/
macro "cites12" : tactic => `(tactic|
  repeat' first
    | with_reducible exact Cites.pure _
    | with_reducible exact Cites.get
    | with_reducible exact Cites.fatal _
    | with_reducible exact Cites.transient
    | with_reducible exact Cites.panic
    | with_reducible exact Cites.check _ _
    | with_reducible exact Cites.orFatal _ _
    | with_reducible exact Cites.orPanic _
    | with_reducible exact Cites.orTransient _
    | with_reducible exact Cites.onEng _
    | with_reducible exact Cites.onEng' _
    | with_reducible exact Cites.drawTick
    | (with_reducible refine Cites.modify ?_) <;> exact fun _ h => h
    | (with_reducible refine Cites.modify ?_) <;> exact fun _ h => h.tell _ nofun
    | assumption
    | with_reducible refine Cites.bind ?_ (fun _ => ?_)
    | split)

section shared
variable {St : Type} {env : PEnv}

theorem announceConnected_cites (a : St) (f g) : Cites (announceConnected env a f g) := by
  unfold announceConnected; simp only [bind_eq, pure_eq]; cites12
theorem awaitChangeCipherSpec_cites (a b : St) : Cites (awaitChangeCipherSpec env a b) := by
  unfold awaitChangeCipherSpec; simp only [bind_eq, pure_eq]; cites12
theorem deriveMaster_cites (a b c d) : Cites (deriveMaster env a b c d : P St Unit) := by
  unfold deriveMaster; simp only [bind_eq]; cites12
theorem drainLoop_cites (l : List Bytes) : Cites (drainLoop env l : P St Unit) := by
  induction l with
  | nil => exact .pure _
  | cons d rest ih => unfold drainLoop; simp only [bind_eq]; cites12
theorem awaitApplicationData_cites (a b : St) : Cites (awaitApplicationData env a b) := by
  have h : Cites (drainQueued env : P St Unit) := fun s g => drainLoop_cites (env := env) s.queued { s with queued := [] } g
  unfold awaitApplicationData sendCloseNotify; simp only [bind_eq, pure_eq]
  cites12
end shared

namespace C12
variable {env : PEnv}

theorem serverExtensions_cites (l b) : Cites (serverExtensions env l b) := by
  induction l generalizing b with
  | nil => exact .pure _
  | cons x rest ih =>
    obtain ⟨t, d⟩ := x
    unfold serverExtensions
    simp only [bind_eq]
    cites12
    all_goals exact ih _

theorem step_cites (st : CSt) : Cites (C12.step env st) := by
  have h1 := fun l b => serverExtensions_cites (env := env) l b
  have h3 := fun a b => awaitChangeCipherSpec_cites (St := CSt) (env := env) a b
  have h4 := fun a b c d => deriveMaster_cites (St := CSt) (env := env) a b c d
  have h5 := fun a b => awaitApplicationData_cites (St := CSt) (env := env) a b
  cases st
  all_goals unfold step
  · unfold sendClientHello; simp only [bind_eq, pure_eq]; cites12
  · unfold awaitHelloVerifyRequest; simp only [bind_eq, pure_eq]; cites12
  · unfold awaitServerHello; simp only [bind_eq, pure_eq]; cites12; exact h1 _ _
  · unfold awaitCertificate; simp only [bind_eq, pure_eq]; cites12
    intro s h hm g
    exact h hm (List.append_eq_nil_iff.mp g).1
  · unfold awaitServerKeyExchange awaitServerKeyExchangePsk awaitServerKeyExchangeEcdhe processEcdh
    simp only [bind_eq, pure_eq]; cites12
  · unfold awaitCertificateRequest; simp only [bind_eq, pure_eq]; cites12
  · intro s hs
    apply of_wp (m := awaitServerHelloDone env)
    unfold awaitServerHelloDone
    simp only [bind_eq, pure_eq, wp_bind]
    rw [wp_onEng]
    refine wp_of (fun m e _ => ?_) (fun _ _ _ => hs)
    split
    · exact hs
    · rw [wp_bind, wp_get, wp_bind]
      refine wp_orFatal_of (fun suite _ => ?_) hs
      split
      · exact hs
      · rw [wp_bind]
        refine wp_check_of (fun hc => ?_) hs
        exact fun _ g => by
          have g : s.peerCerts = [] := g
          have hc : (!s.peerCerts.isEmpty) = true := hc
          rw [g] at hc
          cases hc
    · exact hs
  · unfold sendCertificate; simp only [bind_eq, pure_eq]; cites12
  · unfold sendClientKeyExchange clientKeyExchangeBody; simp only [bind_eq, pure_eq]; cites12
  · unfold sendCertificateVerify certificateVerifyBody; simp only [bind_eq, pure_eq]; cites12
  · unfold sendChangeCipherSpec deriveKeys; simp only [bind_eq, pure_eq]; cites12; exact h4 _ _ _ _
  · unfold sendFinished; simp only [bind_eq, pure_eq]; cites12
  · exact h3 _ _
  · unfold awaitNewSessionTicket; simp only [bind_eq, pure_eq]; cites12
  · unfold awaitFinished; simp only [bind_eq, pure_eq]; cites12; exact announceConnected_cites (env := env) _ _ _
  · exact h5 _ _
  · exact .pure _

end C12

namespace S12
variable {env : PEnv}

theorem clientExtensions_cites (l x) : Cites (clientExtensions env l x) := by
  induction l generalizing x with
  | nil => exact .pure _
  | cons e rest ih =>
    obtain ⟨t, d⟩ := e
    unfold clientExtensions
    simp only [bind_eq]
    cites12
    all_goals exact ih _

theorem finishClientKx_cites (n) : Cites (finishClientKx env n) := by
  have h4 := fun a b c d => deriveMaster_cites (St := SSt) (env := env) a b c d
  unfold finishClientKx; simp only [bind_eq, pure_eq]; cites12
  exact h4 _ _ _ _
theorem clientKxEcdh_cites (n) : Cites (clientKxEcdh env n) := by
  unfold clientKxEcdh; simp only [bind_eq]; cites12
theorem clientKxPsk_cites (n) : Cites (clientKxPsk env n) := by
  unfold clientKxPsk; simp only [bind_eq]; cites12

theorem step_cites (st : SSt) : Cites (S12.step env st) := by
  have h1 := fun l b => clientExtensions_cites (env := env) l b
  have h3 := fun a b => awaitChangeCipherSpec_cites (St := SSt) (env := env) a b
  have h4 := fun n => finishClientKx_cites (env := env) n
  have h5 := fun n => clientKxEcdh_cites (env := env) n
  have h6 := fun n => clientKxPsk_cites (env := env) n
  cases st
  all_goals unfold step
  · unfold awaitClientHello acceptClientHello sendHelloVerify; simp only [bind_eq, pure_eq]; cites12; exact h1 _ _
  · unfold sendServerHello; simp only [bind_eq, pure_eq]; cites12
  · unfold sendCertificate; simp only [bind_eq, pure_eq]; cites12
  · unfold sendServerKeyExchange sendServerKeyExchangePsk sendServerKeyExchangeEcdhe serverKeyExchangeBody
    simp only [bind_eq, pure_eq]; cites12
  · unfold sendCertificateRequest; simp only [bind_eq, pure_eq]; cites12
  · unfold sendServerHelloDone; simp only [bind_eq, pure_eq]; cites12
  · unfold awaitCertificate; simp only [bind_eq, pure_eq]; cites12
    rename_i hc
    exact fun s _ => Cited.more _ (fun g => hc (by rw [g]; rfl)) _
  · unfold awaitClientKeyExchange; simp only [bind_eq, pure_eq]; cites12
    all_goals first | exact h4 _ | exact h5 _ | exact h6 _
  · unfold awaitCertificateVerify; simp only [bind_eq, pure_eq]; cites12
  · exact h3 _ _
  · unfold awaitFinished; simp only [bind_eq, pure_eq]; cites12
  · unfold sendChangeCipherSpec; simp only [bind_eq, pure_eq]; cites12
  · unfold sendFinished; simp only [bind_eq]; cites12; exact announceConnected_cites (env := env) _ _ _
  · exact awaitApplicationData_cites (env := env) _ _
  · exact .pure _

end S12

section
variable {R : Role} {env : PEnv}

theorem progress_cites (h : ∀ st, Cites (R.step env st)) (n : Nat) : Cites (progress R env n) := by
  induction n with
  | zero => exact fun _ => id
  | succ n ih =>
    unfold progress
    simp only [bind_eq, pure_eq]
    refine .bind .get fun s => .bind (h _) fun new => ?_
    split
    · exact .pure _
    · exact .bind (.modify fun _ h => h) fun _ => ih

theorem noteTime_cited (env : PEnv) (n : Nat) {s : Ses R.St} (h : Cited s) : Cited (noteTime R env n s) := by
  unfold noteTime
  split <;> exact h

theorem pollM_cited (n : Nat) {s : Ses R.St} (h : Cited s) : Cited (pollM R n s).2 := by
  unfold pollM
  split
  · rename_i e rest he
    exact fun hm => h (he ▸ List.mem_cons_of_mem _ hm)
  · exact h

theorem call_cited (h : ∀ st, Cites (R.step env st)) (s : Ses R.St) (c : Call) (hs : Cited s) :
    Cited (call R env s c).2 := by
  cases c with
  | packet p =>
    have : Cites (handlePacketM R env p) := by
      unfold handlePacketM
      simp only [bind_eq]
      exact .bind (.onEng _) fun _ => progress_cites h _
    exact this s hs
  | timeout n =>
    have : Cites (handleTimeoutM R env n) := by
      unfold handleTimeoutM
      simp only [bind_eq]
      exact .bind (.modify fun _ h => noteTime_cited env n h) fun _ => .bind (.onEng _) fun _ => progress_cites h _
    exact this s hs
  | send d =>
    have : Cites (sendM R env d) := by
      unfold sendM
      simp only [bind_eq]
      cites12
    exact this s hs
  | close =>
    have : Cites (closeM R env) := by
      unfold closeM sendCloseNotify
      simp only [bind_eq, pure_eq]
      cites12
    exact this s hs
  | poll n => exact pollM_cited n hs

theorem run_cited (h : ∀ st, Cites (R.step env st)) (cs : List Call) : ∀ s, Cited s → Cited (run R env s cs).2 := by
  induction cs with
  | nil => exact fun _ => id
  | cons c cs ih =>
    intro s hs
    have h1 := call_cited h s c hs
    unfold run
    dsimp only
    split
    · exact h1
    · exact ih _ h1

theorem Start.cited {cfg : Cfg} {s0 : Ses R.St} (h : Start env cfg R s0) (cs : List Call) :
    Cited (run R env s0 cs).2 := by
  cases h
  · exact run_cited C12.step_cites cs _ nofun
  · exact run_cited C12.step_cites cs _ nofun
  · exact run_cited S12.step_cites cs _ nofun
end

end Verif.E12

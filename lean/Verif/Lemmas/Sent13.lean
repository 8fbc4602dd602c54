import Verif.Lemmas.Rx13
/-!
# What sending records leaves alone (DTLS 1.3)
-/
namespace Verif.E13
open Verif Wire Window Timer Aead M

/-- The part of the engine that sending a record does not touch, beside `Eng.rp`. -/
def Eng.sp (s : Eng) : Bytes × Option Bytes × Bool × Nat × Option Keys × Option Keys × Bool × List (Nat × Nat) :=
  (s.transcript, s.exporter, s.isClient, s.nextSeq, s.hsSend, s.appSend, s.kuInFlight, s.received)

section same
variable {env : Env}

theorem createPlain_sp (c sv f) (s : Eng) : (createPlain c sv f s).2.sp = s.sp := by
  refine createPlain_ind (motive := fun r => r.2.sp = s.sp) c sv f s (fun _ _ => rfl) (fun _ _ _ => rfl) ?_
  intro _ _ _
  unfold emitPlain pushWire
  split <;> rfl

theorem emitCipher_sp (env : Env) (s : Eng) (suite sl k c ep a f ct) :
    (emitCipher env s suite sl k c ep a f ct).sp = s.sp := by
  obtain ⟨a1, a2, a3, a4, a5, h1⟩ := countSent_eq s sl ep
  unfold emitCipher
  dsimp only
  rw [h1]
  unfold pushWire
  split <;> rfl

theorem createCipher_sp (c ep sv f) (s : Eng) : (createCipher env c ep sv f s).2.sp = s.sp := by
  refine createCipher_ind (motive := fun r => r.2.sp = s.sp) env c ep sv f s (fun _ _ => rfl)
    (fun _ _ _ => rfl) (fun _ _ _ _ _ _ _ _ => rfl) ?_
  intro suite tag k ct _ _ _ _
  exact emitCipher_sp ..

theorem resendEntry_sp (x : Entry) (s : Eng) : (resendEntry env x s).2.sp = s.sp := by
  unfold resendEntry
  split
  · rw [bind_snd]; split <;> exact createPlain_sp ..
  · rw [bind_snd]; split <;> exact createCipher_sp ..

theorem resendLoop_sp (l : List Entry) (s : Eng) : (resendLoop env l s).2.sp = s.sp := by
  induction l generalizing s with
  | nil => rfl
  | cons x l ih =>
    unfold resendLoop
    split
    · rw [bind_snd]; split <;> exact ih s
    · rw [bind_snd]; split
      · rw [bind_snd]; split <;> exact (ih _).trans (resendEntry_sp x s)
      · exact resendEntry_sp x s

theorem flightResend_sp (s : Eng) : (flightResend env s).2.sp = s.sp := by
  unfold flightResend
  rw [bind_snd]; split <;> exact resendLoop_sp s.saved { s with saved := [], sealedDg := true }

end same
end Verif.E13

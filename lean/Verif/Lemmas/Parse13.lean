import Verif.Lemmas.Run13
/-!
# Relations kept by handing a datagram to a DTLS 1.3 engine
-/
namespace Verif.E13
open Verif Wire Window Timer Aead M

/-- `U` is a preorder that holds between the engine before and after everything a datagram brings about. -/
structure PFrame (env : Env) (U : Eng → Eng → Prop) : Prop where
  refl : ∀ e, U e e
  trans : ∀ a b c, U a b → U b c → U a c
  resend : ∀ e, U e (flightResend env e).2
  ack : ∀ e d, U e (processAck env d e).2
  opened : ∀ e k a c p ep n, U e (noteOpened e k a c p ep n)
  close : ∀ e x, U e { e with closeSeq := x }
  queue : ∀ e rx l t, U e { e with rx := rx, received := l, tick := t }

section
variable {env : Env} {U : Eng → Eng → Prop}

theorem PFrame.recordParse (hf : PFrame env U) (b) (s : Eng) : U s (recordParse env b s).2 := by
  unfold E13.recordParse
  dsimp only
  split
  · exact hf.refl s
  · split
    · split
      · unfold openRecord
        dsimp only
        split
        · exact hf.refl s
        · split
          · exact hf.refl s
          · split
            · exact hf.refl s
            · split
              · exact hf.refl s
              · split
                · exact hf.refl s
                · split <;> exact hf.opened ..
      · exact hf.refl s
    · exact hf.refl s
    · exact hf.refl s

theorem PFrame.parseSlices (hf : PFrame env U) (l e acc) (s : Eng) : U s (parseSlices env l e acc s).2 := by
  induction l generalizing acc s with
  | nil => cases e <;> exact hf.refl s
  | cons b l ih =>
    unfold E13.parseSlices
    rw [bind_snd]
    have h := hf.recordParse b s
    split
    · split
      · exact hf.trans _ _ _ h (ih _ _)
      · split
        · exact h
        · exact hf.trans _ _ _ h (ih _ _)
    · exact h

theorem PFrame.classify (hf : PFrame env U) (r) (s : Eng) : U s (classify env r s).2 := by
  unfold E13.classify
  split
  · exact hf.refl s
  · split
    · exact hf.refl s
    · split
      · rw [bind_snd]; split <;> exact hf.ack ..
      · split
        · unfold classifyAlert
          split
          · exact hf.refl s
          · split
            · exact hf.close ..
            · split <;> exact hf.refl s
        · split <;> exact hf.refl s

theorem PFrame.classifyAll (hf : PFrame env U) (l acc) (s : Eng) : U s (classifyAll env l acc s).2 := by
  induction l generalizing acc s with
  | nil => exact hf.refl s
  | cons b l ih =>
    unfold E13.classifyAll
    rw [bind_snd]
    have h := hf.classify b s
    split
    · split <;> exact hf.trans _ _ _ h (ih _ _)
    · exact h

theorem PFrame.recordsParse (hf : PFrame env U) (p) (s : Eng) : U s (recordsParse env p s).2 := by
  unfold E13.recordsParse
  rw [bind_snd]
  split
  · exact hf.trans _ _ _ (hf.parseSlices ..) (hf.classifyAll ..)
  · exact hf.parseSlices ..

theorem PFrame.insertHs (hf : PFrame env U) (l) (s : Eng) : U s (insertHs env l s).2 := by
  have ht : U s { s with tick := s.tick + 1 } := hf.queue s s.rx s.received (s.tick + 1)
  unfold E13.insertHs
  dsimp only
  split
  · exact hf.queue ..
  · split
    · exact ht
    · split
      · exact hf.queue ..
      · exact ht

theorem PFrame.insertIncoming (hf : PFrame env U) (l) (s : Eng) : U s (insertIncoming env l s).2 := by
  unfold E13.insertIncoming
  split
  · exact hf.refl s
  · split
    · exact hf.refl s
    · split
      · rw [bind_snd]
        have h : ∀ l, U s (maybeResend env l s).2 := by
          intro l
          unfold maybeResend
          split
          · split
            · exact hf.resend s
            · exact hf.refl s
          · exact hf.refl s
        split
        · unfold insertHandshakeTail
          split
          · exact h _
          · split
            · exact h _
            · exact hf.trans _ _ _ (h _) (hf.insertHs ..)
        · exact h _
      · unfold insertBySeq
        dsimp only
        split
        · exact hf.queue s _ s.received _
        · exact hf.queue s s.rx s.received _

theorem PFrame.parsePacket (hf : PFrame env U) (p) (s : Eng) : U s (parsePacket env p s).2 := by
  unfold E13.parsePacket
  rw [bind_snd]
  split
  · split
    · exact hf.recordsParse ..
    · exact hf.trans _ _ _ (hf.recordsParse ..) (hf.insertIncoming ..)
  · exact hf.recordsParse ..

end
end Verif.E13

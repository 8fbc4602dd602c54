import Verif.Lemmas.Limit13
import Verif.Props.Ack13
/-!
# When a DTLS 1.3 session updates its keys (C36)

`Careful` is explained at `Fresh13.nonces_differ_partial`. KeyUpdates with the flag `true` are the automatic ones;
the others answer a KeyUpdate of the peer.
-/
namespace Verif.Props.Limit13
open Verif Verif.E13 Verif.Wire Verif.M
open Verif.E12 (Call Ret)

variable {env : PEnv} {cfg : Cfg} {R : Role} {s0 : Ses R.St}

/-- Records encrypted in an epoch, that is with one key. -/
def encrypted (ep : Nat) (log : List Ev) : Nat :=
  (log.filter fun e => match e with | .queued _ _ n _ _ => n == ep | _ => false).length

/-- No KeyUpdate waits for its ACK: each was followed by a change of keys. -/
def Settled (log : List Ev) : Prop :=
  ∀ l ep r l', log = l ++ .keyUpdate ep r :: l' → ∃ n, Ev.rotated n ∈ l

theorem encrypted_eq (ep : Nat) (log : List Ev) : encrypted ep log = log.countP (Ev.inEpoch ep) := by
  unfold encrypted
  rw [List.countP_eq_length_filter]
  congr 2

theorem settled_of {log : List Ev} (h : pend log = false) : Settled log := by
  induction log with
  | nil => intro l ep r l' he; cases l <;> cases he
  | cons e log ih =>
    intro l ep r l' he
    cases l with
    | nil => cases he; cases h
    | cons x l =>
      rw [List.cons_append] at he
      injection he with h1 h2
      subst h1
      cases e with
      | rotated n => exact ⟨n, List.mem_cons_self⟩
      | keyUpdate => cases h
      | _ =>
        obtain ⟨n, hn⟩ := ih h l ep r l' h2
        exact ⟨n, List.mem_cons_of_mem _ hn⟩

theorem pend_of {log : List Ev} (h : Settled log) : pend log = false := by
  induction log with
  | nil => rfl
  | cons e log ih =>
    have sub : (∀ n, e ≠ .rotated n) → Settled log := by
      intro hn l ep r l' he
      obtain ⟨n, hm⟩ := h (e :: l) ep r l' (by rw [he]; rfl)
      rcases List.mem_cons.mp hm with hm | hm
      · exact absurd hm.symm (hn n)
      · exact ⟨n, hm⟩
    cases e with
    | rotated n => rfl
    | keyUpdate ep r =>
      obtain ⟨n, hn⟩ := h [] ep r log rfl
      cases hn
    | _ => exact ih (sub nofun)

theorem allAuto_at {n : Nat} {l : List Ev} {ep : Nat} {past : List Ev} (h : AllAuto n (l ++ .keyUpdate ep true :: past)) :
    pend past = false ∧ 3 * n + 4 ≤ 4 * past.countP (Ev.inEpoch ep) := by
  induction l with
  | nil => exact h.1
  | cons e l ih => exact ih h.2

/-- **C36 (not too early).** When an automatic KeyUpdate is sent, at least three quarters of the limit were encrypted
with the current key before it (`past` also counts the KeyUpdate itself), and no other KeyUpdate waits
for its ACK. -/
theorem key_update_late_enough (h : Start env cfg R s0) (cs : List Call) (hc : Careful R env s0 cs)
    {l past : List Ev} {ep : Nat} (hl : (run R env s0 cs).2.eng.log = l ++ .keyUpdate ep true :: past) :
    3 * cfg.aeadLimit ≤ 4 * (encrypted ep past - 1) ∧ Settled past := by
  have ha := allAuto_filter _ _ (h.lim cs hc).lim.auto
  rw [hl] at ha
  obtain ⟨h1, h2⟩ := allAuto_at ha
  rw [encrypted_eq]
  exact ⟨by omega, settled_of h1⟩

/-- `send_application_data` and `poll_output`. -/
def Passive (c : Call) : Prop := (∃ d, c = .send d) ∨ ∃ n, c = .poll n

theorem passive_due (n : Nat) (s : Ses R.St) (hst : s.st = R.app) (h : DueE n s.eng) (c : Call) (hc : Passive c) :
    (call R env s c).2.st = R.app ∧ DueE n (call R env s c).2.eng := by
  rcases hc with ⟨d, rfl⟩ | ⟨t, rfl⟩
  · have : wp (sendM R env d) s (fun _ s' => s'.st = R.app ∧ DueE n s'.eng) (fun _ s' => s'.st = R.app ∧ DueE n s'.eng) := by
      unfold sendM
      simp only [bind_eq]
      rw [wp_bind, wp_get]
      split
      · exact ⟨hst, h⟩
      · split
        · exact ⟨hst, h⟩
        · unfold sendApp
          rw [wp_onEng]
          exact to_wp (R := fun e => s.st = R.app ∧ DueE n e)
            ⟨hst, createCipher_tx (due_core env.toEnv n) h ctAppData s.eng.appEpoch false d trivial (.inr rfl)⟩
    exact of_wp (fun s' : Ses R.St => s'.st = R.app ∧ DueE n s'.eng) this
  · show (pollM R t s).2.st = R.app ∧ DueE n (pollM R t s).2.eng
    unfold pollM
    split
    · exact ⟨hst, h⟩
    · exact ⟨hst, pollOutput_tx (fun _ _ _ h _ => h) h _ _⟩

theorem run_passive (n : Nat) (cs : List Call) (s : Ses R.St) (hst : s.st = R.app) (h : DueE n s.eng)
    (hc : ∀ c ∈ cs, Passive c) :
    (run R env s cs).2.st = R.app ∧ DueE n (run R env s cs).2.eng := by
  induction cs generalizing s with
  | nil => exact ⟨hst, h⟩
  | cons c cs ih =>
    have h1 := passive_due (env := env) n s hst h c (hc c List.mem_cons_self)
    rw [run_snd]
    split
    · exact h1
    · exact ih _ h1.1 h1.2 fun x hx => hc x (List.mem_cons_of_mem _ hx)

/-- A connected session sends data and with it reaches the limit. -/
theorem send_due (h : Start env cfg R s0) (cs : List Call) (hc : Careful R env s0 cs) {s s1 : Ses R.St}
    (hs : s = (run R env s0 cs).2) (hst : s.st = R.app) (d : Bytes) (h1 : call R env s (.send d) = (.res .ok, s1))
    (hlim : cfg.aeadLimit ≤ encrypted s1.eng.appEpoch s1.eng.log) (hset : Settled s1.eng.log) :
    s1.st = R.app ∧ DueE s1.eng.appEpoch s1.eng := by
  have hl := h.lim cs hc
  rw [← hs] at hl
  obtain ⟨keying, ho⟩ := h.roleOk
  have hsend : sendM R env d s = onEng (createCipher env.toEnv ctAppData s.eng.appEpoch false d) s := by
    unfold sendM
    have n1 : ¬ (R.app = R.closed ∨ R.app = R.halfClosed) := by
      rintro (h | h)
      · exact ho.appClosed h
      · exact ho.appHalf h
    simp only [bind_eq, M.bind, M.get, M.andThen, hst, if_neg n1, ne_eq, not_true_eq_false, if_false]
    rfl
  have hcall : call R env s (.send d) = (.res (E12.toApi (createCipher env.toEnv ctAppData s.eng.appEpoch false d s.eng).1),
      { s with eng := (createCipher env.toEnv ctAppData s.eng.appEpoch false d s.eng).2 }) := by
    show ((.res (E12.toApi (sendM R env d s).1), (sendM R env d s).2) : Ret × Ses R.St) = _
    rw [hsend]
    rfl
  rw [hcall] at h1
  injection h1 with h1 h2
  subst h2
  have hok : (createCipher env.toEnv ctAppData s.eng.appEpoch false d s.eng).1 = .ok () := by
    have hn := createCipher_lasting env.toEnv ctAppData s.eng.appEpoch false d s.eng
    revert hn h1
    generalize (createCipher env.toEnv ctAppData s.eng.appEpoch false d s.eng).1 = r
    intro h1 hn
    cases r with
    | ok => rfl
    | fail f => cases f <;> first | exact absurd rfl hn | exact absurd h1 (by simp [E12.toApi])
  have ht := createCipher_tx (lim_hs env.toEnv cfg.aeadLimit).toTxCore (s := s.eng)
    ⟨hl.lim, fun _ _ => trivial, hl.recv⟩ ctAppData s.eng.appEpoch false d trivial (.inr rfl)
  have ha := createCipher_appEpoch env.toEnv ctAppData s.eng.appEpoch false d s.eng
  obtain ⟨hk, k, n, x, y, z, w, hlog⟩ := createCipher_log (env := env.toEnv) ctAppData s.eng.appEpoch false d s.eng hok
  obtain ⟨_, hd⟩ := createCipher_due env.toEnv ctAppData d s.eng hl.prev hl.app hok
  refine ⟨hst, ⟨hd ?_, ?_, rfl⟩, fun _ _ => trivial, ht.r⟩
  · dsimp only at hlim
    rw [ha, hlog, encrypted_eq, count_push, List.countP_cons, ← hl.count] at hlim
    have : s.eng.threshold ≤ cfg.aeadLimit := hl.lim.hi
    simp [Ev.inEpoch] at hlim
    omega
  · have h3 := pend_of hset
    dsimp only at h3
    rw [hlog] at h3
    have h4 : s.eng.kuInFlight = pend (s.eng.log.filter Ev.isTx) := hl.lim.flag
    rw [pend_filter] at h4
    show (createCipher env.toEnv ctAppData s.eng.appEpoch false d s.eng).2.kuInFlight = false
    rw [hk, h4]
    exact h3

/-- **C36 (not forgotten), partial.** A connected session that sends data, and thereby has encrypted as many records
with its key as the limit says, sends an automatic KeyUpdate in the next `handle_timeout` or, if its
datagram is well-formed, `handle_packet` that succeeds, unless a KeyUpdate waits for its ACK already.
The limit is not observed until then: `limit_exceeded`. -/
theorem key_update_not_forgotten_partial (h : Start env cfg R s0) (cs : List Call) (hc : Careful R env s0 cs)
    {s s1 s2 : Ses R.St} (hs : s = (run R env s0 cs).2) (hst : s.st = R.app) (d : Bytes)
    (h1 : call R env s (.send d) = (.res .ok, s1)) (hlim : cfg.aeadLimit ≤ encrypted s1.eng.appEpoch s1.eng.log)
    (hset : Settled s1.eng.log) (mid : List Call) (hm : ∀ c ∈ mid, Passive c) (h2 : s2 = (run R env s1 mid).2)
    (c : Call) (hok : (∃ t, c = .timeout t ∧ (call R env s2 c).1 = .res .ok) ∨
      ∃ p, c = .packet p ∧ (handlePacketM R env p s2).1 = .ok ()) :
    ∃ new, (call R env s2 c).2.eng.log = new ++ s2.eng.log ∧ .keyUpdate s1.eng.appEpoch true ∈ new := by
  obtain ⟨keying, ho⟩ := h.roleOk
  obtain ⟨g1, g2⟩ := send_due h cs hc hs hst d h1 hlim hset
  obtain ⟨g3, g4⟩ := run_passive (env := env) _ mid s1 g1 g2 hm
  rw [← h2] at g3 g4
  rcases hok with ⟨t, rfl, hok⟩ | ⟨p, rfl, hok⟩
  · exact timeout_due ho _ s2 t g3 g4 hok
  · exact packet_due ho _ s2 p g3 g4 hok

/-! ## Witnesses -/

/-- An automatic KeyUpdate after seven records, its own included, where eight are allowed. -/
example : let log := Ack13.updated.client.eng.log
    let past := (log.dropWhile fun e => match e with | .keyUpdate 3 true => false | _ => true).tail
    log.any (fun e => match e with | .keyUpdate 3 true => true | _ => false) = true ∧ encrypted 3 past = 7 := by
  decide +kernel

/-- The calls of a client that is connected and sends seven times. -/
def seven : List Call := (Ack13.talk 4 Ack13.duo0).cCalls ++ List.replicate 7 (.send [2])

def near : Ses CSt := (run C13.role Demo.plainEnv (C13.start Demo.plainEnv Ack13.smallCfg 0) seven).2

def full : Ses CSt := (call C13.role Demo.plainEnv near (.send [3])).2

/-- With the eighth record it has reached the limit. -/
theorem full_ok : near.st = .awaitApplicationData ∧ (call C13.role Demo.plainEnv near (.send [3])).1 = .res .ok ∧
    Ack13.smallCfg.aeadLimit = 8 ∧ full.eng.appEpoch = 3 ∧ encrypted 3 full.eng.log = 8 ∧ pend full.eng.log = false ∧
    (call C13.role Demo.plainEnv full (.timeout 5000)).1 = .res .ok ∧
    (run C13.role Demo.plainEnv (C13.start Demo.plainEnv Ack13.smallCfg 0) seven).1.all Fresh13.fine = true := by
  decide +kernel

attribute [local irreducible] Careful Settled in
example : Careful C13.role Demo.plainEnv (C13.start Demo.plainEnv Ack13.smallCfg 0) seven ∧ Settled full.eng.log :=
  ⟨Fresh13.careful_of_fine (R := C13.role) full_ok.2.2.2.2.2.2.2, settled_of full_ok.2.2.2.2.2.1⟩

def twenty : List Call :=
  (Ack13.talk 4 Ack13.duo0).cCalls ++ (List.replicate 10 [Call.send [2], Call.poll 4000, Call.send [3]]).flatten

def over : List Ret × Ses CSt := run C13.role Demo.plainEnv (C13.start Demo.plainEnv Ack13.smallCfg 0) twenty

/-- **C36 fails.** Sending data does not look at the limit: without `handle_packet` or `handle_timeout` in between the
application encrypts any number of records with one key. Here twenty, where eight are allowed. -/
theorem limit_exceeded :
    over.1.all Fresh13.fine = true ∧ over.2.st = .awaitApplicationData ∧ Ack13.smallCfg.aeadLimit = 8 ∧
    encrypted 3 over.2.eng.log = 20 ∧ Settled over.2.eng.log := by
  have h : over.1.all Fresh13.fine = true ∧ over.2.st = .awaitApplicationData ∧ Ack13.smallCfg.aeadLimit = 8 ∧
      encrypted 3 over.2.eng.log = 20 ∧ pend over.2.eng.log = false := by decide +kernel
  exact ⟨h.1, h.2.1, h.2.2.1, h.2.2.2.1, settled_of h.2.2.2.2⟩

end Verif.Props.Limit13

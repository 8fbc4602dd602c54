import Verif.Lemmas.Close13
import Verif.Props.Demo13
/-!
# What a DTLS 1.3 session delivers to the application (C15, C39)

Executions are lists of API calls with arbitrary arguments, so the datagrams are the attacker's
choice. `Start` ranges over client, client after version auto-sensing, and server.
-/
namespace Verif.Props.App13
open Verif Verif.E13 Verif.Wire Verif.Aead
open Verif.E12 (outputs Call Output)

variable {env : PEnv} {cfg : Cfg} {R : Role} {s0 : Ses R.St}

/-- Application keys of epoch `e`: made from some secret in epoch 3, then by the key schedule's next
secret for each further epoch. -/
inductive AppKey (env : PEnv) : Nat → Keys → Prop
  | first {suite x k} : env.epochKeys suite x = some k → AppKey env 3 k
  | next {e k suite x k'} : AppKey env e k → env.nextSecret suite k.secret = some x →
      env.epochKeys suite x = some k' → AppKey env (e + 1) k'

/-- Handshake keys. -/
def HsKey (env : PEnv) (k : Keys) : Prop := ∃ suite x, env.epochKeys suite x = some k

/-- `k` opens a ciphertext under the nonce of number `seq` to `content` of type `t`, padded with zeros. -/
def OpensTo (env : PEnv) (k : Keys) (seq : Nat) (t : UInt8) (content : Bytes) : Prop :=
  ∃ aad cipher pad,
    env.dec k.key (nonceXor k.iv seq) aad cipher = some (content ++ t :: List.replicate pad 0)

/-! ## Helpers -/

theorem appKey_iff {e : Nat} {k : Keys} : E13.AppKey env.toEnv e k ↔ AppKey env e k := by
  constructor <;> intro h <;> induction h with
  | first h => exact .first h
  | next _ h1 h2 ih => exact .next ih h1 h2

/-- What an opening in the log means. -/
theorem opened_means (h : Start env cfg R s0) (cs : List Call) {k : Keys} {n a c p : Bytes} {e q : Nat} {t : UInt8}
    {f : Bytes} (hm : Ev.opened k n a c p e q ∈ (run R env s0 cs).2.eng.log) (hp : recoverInner p = some (t, f)) :
    OpensTo env k q t f ∧ (AppKey env e k ∨ e = 2 ∧ HsKey env k) := by
  obtain ⟨rfl, h1⟩ := (h.prov cs).ok _ _ _ _ _ _ _ hm
  obtain ⟨_, pad, rfl⟩ := Wire.inner_exact _ _ _ hp
  refine ⟨⟨a, c, pad, ?_⟩, ?_⟩
  · rw [h1]; simp
  · rcases (h.keyInv cs).used _ _ _ _ _ _ _ hm with g | g
    · exact .inr g
    · exact .inl (appKey_iff.mp g)

/-! ## C15 -/

/-- **C15, partial.** The application data handed out is, in order, the content of a list of received
records; the flag says whether the record was opened. One that was opened, opens to application data
under its own number with application keys of its epoch, or with handshake keys in epoch 2. One that was
not opened came as a single record with a ciphertext header that says epoch 0 or 1.

The claim asks for the first case only. The last does happen: `delivers_forged`. -/
theorem delivers_authentic_partial (h : Start env cfg R s0) (cs : List Call) :
    ∃ recs : List (Rec13 × Bool),
      appData (outputs (run R env s0 cs).1) = recs.map (·.1.fragment) ∧
      (∀ r, (r, true) ∈ recs → ∃ k, OpensTo env k r.seq ctAppData r.fragment ∧
        (AppKey env r.epoch k ∨ r.epoch = 2 ∧ HsKey env k)) ∧
      (∀ r, (r, false) ∈ recs → r.epoch < 2 ∧ ∃ datagram rest, parse13 datagram = .ok rest r ∧
        isCiphertextHeader (flagsOf datagram) = true) := by
  refine ⟨(delivered (run R env s0 cs).2.eng.log).reverse, (h.shown cs).data, ?_, ?_⟩
  · intro r hr
    obtain ⟨h1, h2, _⟩ := (h.prov cs).del r true (mem_delivered.mp (List.mem_reverse.mp hr))
    obtain ⟨k, n, a, c, p, hm, hp⟩ := h2 rfl
    rw [h1] at hp
    exact ⟨k, opened_means h cs hm hp⟩
  · intro r hr
    obtain ⟨h1, _, h2⟩ := (h.prov cs).del r false (mem_delivered.mp (List.mem_reverse.mp hr))
    obtain ⟨b, _, ⟨rest, hb⟩, h3⟩ := h2 rfl
    rcases parse13_kind hb with ⟨_, _, g⟩ | ⟨g, _, _⟩
    · exact absurd h1 g
    · exact ⟨h3 g rfl, b, rest, hb, g⟩

/-- A datagram made without any key: a ciphertext header of epoch 0, number 0, length 4. -/
def forged : Bytes := [0x2c, 0, 0, 0, 4, 66, 65, 68, 33]

/-- The calls of a server whose handshake with a genuine client completes, with `forged` arriving before
the ClientHello. -/
def attack (env : PEnv) : List Call :=
  let d := Demo.duo0 env env
  let d := { d with server := (call S13.role env d.server (.packet forged)).2,
                    sCalls := d.sCalls ++ [.packet forged] }
  let r := Demo.round env env
  (r (r (r (r d)))).sCalls

/-- The forged content is handed to the application of a server, after Connected, though nothing of that
content was ever opened: C15 fails. -/
theorem delivers_forged :
    let rs := run S13.role Demo.plainEnv (S13.start Demo.plainEnv Demo.cfg 0 false) (attack Demo.plainEnv)
    .eng (.appData [66, 65, 68, 33]) ∈ outputs rs.1 ∧
    ∀ k n a c t pad e q, Ev.opened k n a c ([66, 65, 68, 33] ++ t :: pad) e q ∉ rs.2.eng.log := by
  have h : ∀ l : List Ev, l.all (fun | .opened _ _ _ _ p _ _ => p.take 4 != [66, 65, 68, 33] | _ => true) = true →
      ∀ k n a c t pad e q, Ev.opened k n a c ([66, 65, 68, 33] ++ t :: pad) e q ∉ l := by
    intro l hl k n a c t pad e q hm
    have := List.all_eq_true.mp hl _ hm
    simp at this
  exact ⟨by decide +kernel, h _ (by decide +kernel)⟩

/-- Another record made without any key. -/
def forged2 : Bytes := [0x2c, 0, 1, 0, 4, 69, 86, 73, 76]

/-- As `attack`, with `forged2` arriving early in two datagrams: alone, and behind `forged`. -/
def replay (env : PEnv) : List Call :=
  let d := Demo.duo0 env env
  let d := [forged2, forged ++ forged2].foldl (fun d x =>
    { d with server := (call S13.role env d.server (.packet x)).2, sCalls := d.sCalls ++ [Call.packet x] }) d
  let r := Demo.round env env
  (r (r (r (r d)))).sCalls ++ List.replicate 3 (.poll 2000)

/-- A record that arrives in two datagrams is handed to the application twice: C18 fails. -/
theorem delivers_replayed :
    (outputs (run S13.role Demo.plainEnv (S13.start Demo.plainEnv Demo.cfg 0 false) (replay Demo.plainEnv)).1).count
      (.eng (.appData [69, 86, 73, 76])) = 2 := by decide +kernel

/-- Genuine data, once, though its datagrams come twice. -/
def demoData : List Bytes :=
  Demo.clientSays Demo.fullEnv [.send [1, 2, 3], .poll 2000, .send [4], .poll 2000]

example : Start Demo.fullEnv Demo.cfg S13.role (S13.start Demo.fullEnv Demo.cfg 0 false) := .server 0 false

example : appData (outputs (Demo.serverRun Demo.fullEnv
    (demoData.map .packet ++ demoData.map .packet ++ List.replicate 4 (.poll 2000))).1) = [[1, 2, 3], [4]] := by
  decide +kernel

/-! ## C39 -/

/-- **C39 (DTLS 1.3), reported once.** -/
theorem close_notify_once (h : Start env cfg R s0) (cs : List Call) :
    (outputs (run R env s0 cs).1).count (.eng .closeNotify) ≤ 1 := by
  rw [(h.shown cs).close]
  split <;> omega

/-- **C39 (DTLS 1.3), authentic, partial.** CloseNotify is only reported when an alert with description 0
opened with application or handshake keys, or when an unprotected one was received; `closeSeq` is the
number of the first.

The claim asks for the first case. The second happens: `close_notify_forged`. -/
theorem close_notify_authentic_partial (h : Start env cfg R s0) (cs : List Call)
    (hc : .eng .closeNotify ∈ outputs (run R env s0 cs).1) :
    ∃ c, (run R env s0 cs).2.eng.closeSeq = some c ∧ (c.1 = 0 ∨
      ∃ k level rest, OpensTo env k c.2 ctAlert (level :: 0 :: rest) ∧
        (AppKey env c.1 k ∨ c.1 = 2 ∧ HsKey env k)) := by
  have hi := h.closeInv cs
  have h1 : (run R env s0 cs).2.eng.closeReported = true := by
    have := (h.shown cs).close
    have hpos : 0 < (outputs (run R env s0 cs).1).count (.eng .closeNotify) := List.count_pos_iff.mpr hc
    cases hr : (run R env s0 cs).2.eng.closeReported
    · rw [hr] at this; simp at this; omega
    · rfl
  obtain ⟨c, hs⟩ := Option.isSome_iff_exists.mp (hi.reported h1)
  refine ⟨c, hs, (hi.close c hs).imp id ?_⟩
  rintro ⟨k, n, a, ci, p, f, hm, hp, hf⟩
  match f, hf with
  | level :: 0 :: rest, _ => exact ⟨k, level, rest, opened_means h cs hm hp⟩
  | [], hf => cases hf
  | [_], hf => cases hf
  | _ :: x :: _, hf => 
    have : x = 0 := by simpa using hf
    subst this
    exact ⟨k, _, _, opened_means h cs hm hp⟩

/-- An unprotected close_notify. -/
def forgedClose : Bytes := [21, 0xfe, 0xfd, 0, 0, 0, 0, 0, 0, 0, 0, 0, 2, 1, 0]

/-- A client that has sent its ClientHello reports CloseNotify on `forgedClose`, and its handshake does
not complete: the genuine ServerHello's number is not above the alert's, but everything after it is. -/
theorem close_notify_forged :
    let rs := run C13.role Demo.plainEnv (C13.start Demo.plainEnv Demo.cfg 0)
      ([Call.timeout 0, .poll 2000, .packet forgedClose] ++ (Demo.clientCalls Demo.plainEnv).drop 2)
    .eng .closeNotify ∈ outputs rs.1 ∧ .connected ∉ outputs rs.1 ∧ rs.2.eng.closeSeq = some (0, 0) ∧
    .connected ∈ outputs (Demo.clientRun Demo.plainEnv []).1 := by
  decide +kernel

/-- **C39 (DTLS 1.3), nothing after it.** Once a close_notify was received (`closeSeq` is its number),
whatever follows, application data handed out later was already waiting then, or its number is not above
that of the close_notify. -/
theorem nothing_new_after_close (h : Start env cfg R s0) (cs cs' : List Call) (c : Nat × Nat)
    (hc : (run R env s0 cs).2.eng.closeSeq = some c) :
    ∃ (more : List Output) (recs : List (Rec13 × Bool)),
      outputs (run R env s0 (cs ++ cs')).1 = outputs (run R env s0 cs).1 ++ more ∧
      appData more = recs.map (·.1.fragment) ∧
      ∀ x ∈ recs, x.1.epoch < c.1 ∨ (x.1.epoch = c.1 ∧ x.1.seq ≤ c.2) ∨
        ∃ w ∈ (run R env s0 cs).2.eng.rx.flatten, w.rcd.ctype = ctAppData ∧ w.isHandled = false ∧ w.rcd = x.1 := by
  have hpre : ∃ more, outputs (run R env s0 (cs ++ cs')).1 = outputs (run R env s0 cs).1 ++ more := by
    rcases run_append R env s0 cs cs' with g | g <;> rw [g]
    · exact ⟨[], by simp⟩
    · exact ⟨_, E12.outputs_append _ _⟩
  obtain ⟨more, hm⟩ := hpre
  obtain ⟨new, hl, hn⟩ := (h.ended cs cs' hc).log
  refine ⟨more, new.reverse, hm, ?_, ?_⟩
  · have e1 := (h.shown cs).data
    have e2 := (h.shown (cs ++ cs')).data
    rw [hm, appData_append, hl, List.reverse_append, List.map_append, ← e1] at e2
    exact List.append_cancel_left e2
  · intro x hx
    rcases hn x (List.mem_reverse.mp hx) with hw | hw
    · exact .inr (.inr hw)
    · unfold seqGt at hw
      simp only [decide_eq_false_iff_not] at hw
      omega

/-- **C39 (DTLS 1.3), records before it are still delivered.** While the connection is up, a poll with a
large enough buffer hands out the first waiting application record, whether or not a close_notify was
received; so CloseNotify only comes when none waits. -/
theorem waiting_is_delivered (s : Ses R.St) (n : Nat) (he : s.events = []) (hr : s.eng.release = true)
    (r : Rx) (hx : (s.eng.rx.flatten.filter fun r => r.rcd.ctype = ctAppData ∧ r.isHandled = false).head? = some r)
    (hn : r.rcd.fragment.length ≤ n) : (call R env s (.poll n)).1 = .out (.eng (.appData r.rcd.fragment)) := by
  have key : ∀ l : List Rx, ((l.filter fun r => decide (r.rcd.ctype = ctAppData)).dropWhile (·.isHandled)).head?
      = (l.filter fun r => r.rcd.ctype = ctAppData ∧ r.isHandled = false).head? := by
    intro l
    induction l with
    | nil => rfl
    | cons x l ih =>
      by_cases h1 : x.rcd.ctype = ctAppData
      · cases h2 : x.isHandled <;> simp [h1, h2] <;> simpa using ih
      · simp [h1]; simpa using ih
  have hp : nextApp (purge s.eng) = some r := by
    unfold nextApp
    rw [key]
    rw [← hx]
    have hsplit : s.eng.rx = s.eng.rx.takeWhile (fun i => i.all (·.isHandled)) ++ (purge s.eng).rx :=
      (List.takeWhile_append_dropWhile ..).symm
    conv => rhs; rw [hsplit]
    rw [List.flatten_append, List.filter_append]
    have : (s.eng.rx.takeWhile (fun i => i.all (·.isHandled))).flatten.filter
        (fun r => decide (r.rcd.ctype = ctAppData ∧ r.isHandled = false)) = [] := by
      rw [List.filter_eq_nil_iff]
      intro x hx
      obtain ⟨i, hi, hxi⟩ := List.mem_flatten.mp hx
      have := List.all_eq_true.mp (List.all_eq_true.mp (List.all_takeWhile (l := s.eng.rx)
        (p := fun i => i.all (·.isHandled))) i hi) x hxi
      simp [this]
    rw [this, List.nil_append]
  simp only [call, pollM, he, pollOutput]
  rw [if_pos (show (purge s.eng).release = true from hr), hp]
  simp only
  rw [if_neg (by omega)]

/-- The client sends data and closes; the close_notify overtakes the data. The server hands out both
pieces, the one that comes after CloseNotify too since it was sent before. -/
def demoClose : List Call :=
  match Demo.clientSays Demo.fullEnv [.send [1, 2], .poll 2000, .send [3], .poll 2000, .close, .poll 2000] with
  | [a, b, c] => [.packet a, .packet c, .poll 2000, .poll 2000, .packet b, .poll 2000]
  | _ => []

example : ((outputs (Demo.serverRun Demo.fullEnv demoClose).1).filter
    fun | .eng (.packet _) => false | .eng (.timeout _) => false | _ => true)
    = [.peerCert [77, 78], .connected, .eng (.appData [1, 2]), .eng .closeNotify, .eng (.appData [3])] := by
  decide +kernel

end Verif.Props.App13

import Verif.Lemmas.Start12
import Verif.Lemmas.Opened12
import Verif.Lemmas.End12
import Verif.Props.Demo12
/-!
# What a DTLS 1.2 session delivers to the application (C01, C16, C17, C18, C39)

Executions are lists of API calls with arbitrary arguments, so the datagrams are the attacker's
choice. `Start` ranges over client, client after version auto-sensing, and server. The only condition
on cryptography here is `DecShort`: opening a ciphertext does not lengthen it.
-/
namespace Verif.Props.App12
open Verif Verif.E12 Verif.Wire Verif.Aead

/-- The application data among the outputs, in order. -/
def appData (os : List Output) : List Bytes :=
  os.filterMap fun
    | .eng (.appData b) => some b
    | _ => none

/-- `r` is a record of application data that opens under the session's receive key with nonce and
additional data made from its own epoch and number. -/
def Authentic (env : PEnv) (s : Eng) (r : Rec12) : Prop :=
  ∃ key iv x nonce len cipher, s.peerKey = some (key, iv) ∧ r.ctype = ctAppData ∧
    recordNonce s.explicitLen iv x r.epoch r.seq = some nonce ∧
    env.dec key nonce (aad12 ctAppData r.epoch r.seq len) cipher = some r.fragment

variable {env : PEnv} {cfg : Cfg} {R : Role} {s0 : Ses R.St}

/-! ## Helpers -/

theorem dec_short_demo (a : Auth) (l : List Nat) (c r : Bool) : DecShort (Demo.env a l c r).toEnv := by
  intro k n a' c' p h
  simp only [Demo.env, Demo.baseEnv] at h
  split at h
  · cases h; simp
  · cases h

/-- The records delivered, in order, with how they came. -/
def delivered : List Ev → List (Rec12 × Bool)
  | [] => []
  | .delivered r o :: l => (r, o) :: delivered l
  | _ :: l => delivered l

theorem mem_delivered {l : List Ev} {r : Rec12} {o : Bool} : (r, o) ∈ delivered l ↔ Ev.delivered r o ∈ l := by
  induction l with
  | nil => simp [delivered]
  | cons e l ih => cases e <;> simp [delivered, ih]

theorem deliveredSeqs_eq (l : List Ev) :
    deliveredSeqs l = ((delivered l).filter (·.2)).map (·.1.seq) := by
  induction l with
  | nil => rfl
  | cons e l ih =>
    cases e with
    | delivered r o => cases o <;> simp [delivered, deliveredSeqs, ih]
    | _ => simpa [delivered, deliveredSeqs] using ih

theorem appData_eq {R : Role} {p : R.St → Bool} {os : List Output} {s : Ses R.St} (h : Hist R p os s) :
    appData os = ((delivered s.eng.log).reverse.map (·.1.fragment)) := by
  have h1 := h.outs
  have h2 : appData os = (os.filterMap Output.wire).filterMap fun
      | .appData b => some b
      | _ => none := by
    rw [List.filterMap_filterMap]
    unfold appData
    congr 1
    funext o
    cases o with
    | eng o => cases o <;> rfl
    | _ => rfl
  rw [h2, h1, List.filterMap_reverse, List.map_reverse]
  congr 1
  show ((s.eng.log.filter Ev.isOut).filterMap Ev.out).filterMap _ = _
  clear h h1 h2
  induction s.eng.log with
  | nil => rfl
  | cons e l ih =>
    rw [List.filter_cons]
    cases e <;> simp [delivered, Ev.isOut, Ev.out, ih]

/-! ## C16, C18 and the session part of C01 -/

/-- **C18, partial; C01 for sessions.** The application data handed out is, in order, the content of a
list of received records: those that were opened with the receive key are authentic and no two of them
have the same record number; a record that was not opened has epoch 2 or more. No two records opened
in the whole connection have the same number.

Missing from C18: a record that was *not* opened (see `delivers_forged`); it is delivered again if it comes
again (`delivers_replayed`). -/
theorem delivered_once_partial (h : Start env cfg R s0) (hd : DecShort env.toEnv) (cs : List Call) :
    ∃ recs : List (Rec12 × Bool),
      appData (outputs (run R env s0 cs).1) = recs.map (·.1.fragment) ∧
      ((recs.filter (·.2)).map (·.1.seq)).Nodup ∧
      (∀ r, (r, true) ∈ recs → Authentic env (run R env s0 cs).2.eng r) ∧
      (∀ r, (r, false) ∈ recs → r.ctype = ctAppData ∧ r.epoch ≥ 2) ∧
      (openedSeqs (run R env s0 cs).2.eng.log).Nodup := by
  obtain ⟨p, hh⟩ := h.hist hd cs
  have hx := h.rxInv hd cs
  have ho := (h.steps' cs).opened (by rw [h.log0]; nofun)
  refine ⟨(delivered (run R env s0 cs).2.eng.log).reverse, appData_eq hh, ?_, ?_, ?_, hx.nodup⟩
  · rw [List.filter_reverse, List.map_reverse, List.Nodup, List.pairwise_reverse, ← deliveredSeqs_eq]
    refine List.Pairwise.imp (fun h => Ne.symm h) ?_
    exact (List.nodup_append.mp hx.once).1
  · intro r hr
    have hm := mem_delivered.mp (List.mem_reverse.mp hr)
    obtain ⟨h1, _, h2⟩ := hx.del r true hm
    obtain ⟨key, iv, n, a, c, _, hm'⟩ := h2 rfl
    obtain ⟨iv', x, len, g1, g2, g3, g4⟩ := ho _ hm'
    subst g3
    rw [h1] at g4
    exact ⟨key, iv', x, n, len, c, g1, h1, g2, g4⟩
  · intro r hr
    have hm := mem_delivered.mp (List.mem_reverse.mp hr)
    exact ⟨(hx.del r false hm).1, hh.foreign r (by simp [shown, hm, Ev.isOut])⟩

/-- **C16, partial.** Every piece of application data handed out is the content of a record that opens
under the receive key, or of a record of epoch 2 or more. DTLS 1.2 here never uses an epoch above 1, so
the second case is a forgery: it does happen, see `delivers_forged`. -/
theorem delivers_authentic_partial (h : Start env cfg R s0) (hd : DecShort env.toEnv) (cs : List Call)
    (b : Bytes) (hb : .eng (.appData b) ∈ outputs (run R env s0 cs).1) :
    ∃ r : Rec12, r.ctype = ctAppData ∧ r.fragment = b ∧
      (Authentic env (run R env s0 cs).2.eng r ∨ r.epoch ≥ 2) := by
  obtain ⟨recs, h1, _, h2, h3, _⟩ := delivered_once_partial h hd cs
  have hm : b ∈ appData (outputs (run R env s0 cs).1) := List.mem_filterMap.mpr ⟨_, hb, rfl⟩
  rw [h1] at hm
  obtain ⟨⟨r, o⟩, hr, rfl⟩ := List.mem_map.mp hm
  cases o with
  | true =>
    have := h2 r hr
    exact ⟨r, this.choose_spec.choose_spec.choose_spec.choose_spec.choose_spec.choose_spec.2.1, rfl, .inl this⟩
  | false => exact ⟨r, (h3 r hr).1, rfl, .inr (h3 r hr).2⟩

/-- A datagram made without any key: an application data record claiming epoch 2. -/
def forged : Bytes := [23, 0xfe, 0xfd, 0, 2, 0, 0, 0, 0, 0, 0, 0, 4, 66, 65, 68, 33]

/-- Deliver the peer's ChangeCipherSpec in a datagram of its own. -/
def splitCcs : Call → List Call
  | .packet p => if p.head? = some 20 then [.packet (p.take 14), .packet (p.drop 14)] else [.packet p]
  | c => [c]

/-- The calls of a client whose handshake completes, with `forged` arriving early. -/
def attack : List Call :=
  match clientCalls with
  | c :: cs => c :: .packet forged :: cs.flatMap splitCcs
  | [] => []
where clientCalls := Demo.clientCalls Demo.pskEnv

/-- The forged content is handed to the application, after Connected, though nothing of that content
was ever opened: C16 fails. -/
theorem delivers_forged :
    let rs := run C12.role Demo.pskEnv (C12.start Demo.pskEnv Demo.cfg 0) attack
    .eng (.appData [66, 65, 68, 33]) ∈ outputs rs.1 ∧
    ∀ k n a c t e q, Ev.opened k n a c [66, 65, 68, 33] t e q ∉ rs.2.eng.log := by
  have h : ∀ l : List Ev, l.all (fun | .opened _ _ _ _ p _ _ _ => p != [66, 65, 68, 33] | _ => true) = true →
      ∀ k n a c t e q, Ev.opened k n a c [66, 65, 68, 33] t e q ∉ l := by
    intro l hl k n a c t e q hm
    have := List.all_eq_true.mp hl _ hm
    simp at this
  exact ⟨by decide +kernel, h _ (by decide +kernel)⟩

/-- Another record made without any key. -/
def forged2 : Bytes := [23, 0xfe, 0xfd, 0, 2, 0, 0, 0, 0, 0, 1, 0, 4, 69, 86, 73, 76]

/-- As `attack`, with `forged2` arriving early in two datagrams: alone, and behind `forged`. -/
def replay : List Call :=
  match Demo.clientCalls Demo.pskEnv with
  | c :: cs => c :: .packet forged2 :: .packet (forged ++ forged2) ::
      (cs.flatMap splitCcs ++ List.replicate 3 (.poll 2000))
  | [] => []

/-- A record that arrives in two datagrams is handed to the application twice: C18 fails. -/
theorem delivers_replayed :
    (outputs (run C12.role Demo.pskEnv (C12.start Demo.pskEnv Demo.cfg 0) replay).1).count
      (.eng (.appData [69, 86, 73, 76])) = 2 := by decide +kernel

/-- The hypotheses are met by a server that receives two records, one of them twice. -/
def demoData : List Bytes :=
  Demo.clientSays Demo.pskEnv [.send [1, 2, 3], .poll 2000, .send [4], .poll 2000]

def demoCalls : List Call :=
  Demo.serverCalls Demo.pskEnv ++ demoData.map .packet ++ demoData.map .packet ++ List.replicate 4 (.poll 2000)

example : Start Demo.pskEnv Demo.cfg S12.role (S12.start Demo.pskEnv Demo.cfg 0) ∧
    DecShort Demo.pskEnv.toEnv := ⟨.server 0, dec_short_demo _ _ _ _⟩

example : appData (outputs (run S12.role Demo.pskEnv (S12.start Demo.pskEnv Demo.cfg 0) demoCalls).1)
    = [[1, 2, 3], [4]] := by decide +kernel

/-! ## C17 -/

/-- **C17.** Before every piece of application data the application got Connected. -/
theorem no_data_before_connected (h : Start env cfg R s0) (hd : DecShort env.toEnv) (cs : List Call)
    (l l' : List Output) (b : Bytes)
    (ho : outputs (run R env s0 cs).1 = l ++ .eng (.appData b) :: l') : .connected ∈ l := by
  obtain ⟨p, hh⟩ := h.hist hd cs
  exact hh.before l b l' ho

/-- Met by the demo server; and data that arrives before the handshake is complete waits. -/
example : ∃ l l', outputs (run S12.role Demo.pskEnv (S12.start Demo.pskEnv Demo.cfg 0) demoCalls).1
    = l ++ .eng (.appData [1, 2, 3]) :: l' :=
  List.append_of_mem (by decide +kernel)

/-! ## C39 -/

/-- **C39 (DTLS 1.2), reported once.** -/
theorem close_notify_once (h : Start env cfg R s0) (hd : DecShort env.toEnv) (cs : List Call) :
    (outputs (run R env s0 cs).1).count (.eng .closeNotify) ≤ 1 := by
  obtain ⟨p, hh⟩ := h.hist hd cs
  rw [hh.close]
  split <;> omega

/-- **C39 (DTLS 1.2), authentic.** CloseNotify is only reported when an alert with description 0 opened
under the receive key. -/
theorem close_notify_authentic (h : Start env cfg R s0) (hd : DecShort env.toEnv) (cs : List Call)
    (hc : .eng .closeNotify ∈ outputs (run R env s0 cs).1) :
    ∃ key iv x nonce epoch seq len cipher level rest,
      (run R env s0 cs).2.eng.peerKey = some (key, iv) ∧
      recordNonce (run R env s0 cs).2.eng.explicitLen iv x epoch seq = some nonce ∧
      env.dec key nonce (aad12 ctAlert epoch seq len) cipher = some (level :: 0 :: rest) := by
  obtain ⟨p, hh⟩ := h.hist hd cs
  have h1 : (run R env s0 cs).2.eng.closeReported = true := by
    have := hh.close
    have hpos : 0 < (outputs (run R env s0 cs).1).count (.eng .closeNotify) := List.count_pos_iff.mpr hc
    cases hr : (run R env s0 cs).2.eng.closeReported
    · simp [shown, hr] at this
      omega
    · rfl
  have h2 := hh.reported h1
  have h0 : CloseOk s0.eng := by cases h <;> nofun
  obtain ⟨k, n, a, c, lv, rest, e, q, hm⟩ := (h.steps' cs).closeOk hd h0 h2
  obtain ⟨iv, x, len, g1, g2, g3, g4⟩ := (h.steps' cs).opened (by rw [h.log0]; nofun) _ hm
  exact ⟨k, iv, x, n, e, q, len, c, lv, rest, g1, g2, g3 ▸ g4⟩

/-- **C39 (DTLS 1.2), nothing after it.** Once a close_notify was received (`closeRecv`), whatever
datagrams follow, application data handed out later was already waiting at that point. -/
theorem nothing_new_after_close (h : Start env cfg R s0) (hd : DecShort env.toEnv) (cs cs' : List Call)
    (hc : (run R env s0 cs).2.eng.closeRecv = true) :
    ∃ more, outputs (run R env s0 (cs ++ cs')).1 = outputs (run R env s0 cs).1 ++ more ∧
      ∀ b, .eng (.appData b) ∈ more → ∃ r ∈ (run R env s0 cs).2.eng.rx.flatten,
        r.rcd.ctype = ctAppData ∧ r.isHandled = false ∧ r.rcd.fragment = b := by
  have hpre : ∃ more, outputs (run R env s0 (cs ++ cs')).1 = outputs (run R env s0 cs).1 ++ more := by
    rcases run_append R env s0 cs cs' with g | g <;> rw [g]
    · exact ⟨[], by simp⟩
    · exact ⟨_, outputs_append _ _⟩
  obtain ⟨more, hm⟩ := hpre
  refine ⟨more, hm, ?_⟩
  intro b hb
  obtain ⟨p, h1⟩ := h.hist hd cs
  obtain ⟨p', h2⟩ := h.hist hd (cs ++ cs')
  have e1 := appData_eq h1
  have e2 := appData_eq h2
  let A : Rec12 → Prop := fun x => ∃ r ∈ (run R env s0 cs).2.eng.rx.flatten,
    r.rcd.ctype = ctAppData ∧ r.isHandled = false ∧ r.rcd = x
  have hend : Ended A (run R env s0 cs).2.eng.log (run R env s0 (cs ++ cs')).2.eng :=
    (h.between cs cs').ended ⟨hc, fun r hr g1 g2 => ⟨r, hr, g1, g2, rfl⟩, [], rfl, by simp⟩
  obtain ⟨es, hl, hes⟩ := hend.log
  have happ : ∀ a b : List Ev, delivered (a ++ b) = delivered a ++ delivered b := by
    intro a b
    induction a with
    | nil => rfl
    | cons e a ih => cases e <;> simp [delivered, ih]
  rw [hl, happ, List.reverse_append, List.map_append, ← e1, hm] at e2
  unfold appData at e2
  rw [List.filterMap_append] at e2
  have e3 := List.append_cancel_left e2
  have hbm : b ∈ appData more := List.mem_filterMap.mpr ⟨_, hb, rfl⟩
  unfold appData at hbm
  rw [e3] at hbm
  obtain ⟨⟨r, o⟩, hr, rfl⟩ := List.mem_map.mp hbm
  obtain ⟨x, hx, g1, g2, rfl⟩ := hes r o (mem_delivered.mp (List.mem_reverse.mp hr))
  exact ⟨x, hx, g1, g2, rfl⟩

/-- **C39 (DTLS 1.2), records before it are still delivered.** While the connection is up, a poll with a
large enough buffer hands out the first waiting application record, whether or not a close_notify was
received; CloseNotify only comes when none waits. -/
theorem waiting_is_delivered (s : Ses R.St) (n : Nat) (he : s.events = []) (hr : s.eng.release = true)
    (r : Rx) (hx : (s.eng.rx.flatten.filter fun r => r.rcd.ctype = ctAppData ∧ r.isHandled = false).head? = some r)
    (hn : r.rcd.fragment.length ≤ n) : (call R env s (.poll n)).1 = .out (.eng (.appData r.rcd.fragment)) := by
  have key : ∀ l : List Rx, ((l.filter fun r => decide (r.rcd.ctype = ctAppData)).dropWhile (·.isHandled)).head?
      = (l.filter fun r => r.rcd.ctype = ctAppData ∧ r.isHandled = false).head? := by
    intro l
    induction l with
    | nil => rfl
    | cons x l ih =>
      by_cases h1 : x.rcd.ctype = ctAppData
      · cases h2 : x.isHandled <;> simp [h1, h2] <;> simpa using ih
      · simp [h1]; simpa using ih
  have hp : nextApp (purge s.eng) = some r := by
    unfold nextApp
    rw [key]
    rw [← hx]
    have hsplit : s.eng.rx = s.eng.rx.takeWhile (fun i => i.all (·.isHandled)) ++ (purge s.eng).rx :=
      (List.takeWhile_append_dropWhile ..).symm
    conv => rhs; rw [hsplit]
    rw [List.flatten_append, List.filter_append]
    have : (s.eng.rx.takeWhile (fun i => i.all (·.isHandled))).flatten.filter
        (fun r => decide (r.rcd.ctype = ctAppData ∧ r.isHandled = false)) = [] := by
      rw [List.filter_eq_nil_iff]
      intro x hx
      obtain ⟨i, hi, hxi⟩ := List.mem_flatten.mp hx
      have := List.all_eq_true.mp (List.all_eq_true.mp (List.all_takeWhile (l := s.eng.rx)
        (p := fun i => i.all (·.isHandled))) i hi) x hxi
      simp [this]
    rw [this, List.nil_append]
  simp only [call, pollM, he, pollOutput]
  rw [if_pos (show (purge s.eng).release = true from hr), hp]
  simp only
  rw [if_neg (by omega)]

/-- **C39 (DTLS 1.2), the end.** After Connected and CloseNotify no application data comes any more. -/
theorem no_data_after_close_notify (h : Start env cfg R s0) (hd : DecShort env.toEnv) (cs : List Call)
    (l l' : List Output) (ho : outputs (run R env s0 cs).1 = l ++ .eng .closeNotify :: l')
    (hc : .connected ∈ l) (b : Bytes) : .eng (.appData b) ∉ l' := by
  let P : List Output → Eng → Prop := fun os e => ∀ l l', os = l ++ .eng .closeNotify :: l' → .connected ∈ l →
    (∃ L, Ended (fun _ => False) L e) ∧ ∀ b, .eng (.appData b) ∉ l'
  refine (Start.induct (P := P) h hd (by intro l l' h; simp at h) ?_ ?_ cs l l' ho hc).2 b
  · intro os e e' hs hp l l' hl hc
    obtain ⟨⟨L, h1⟩, h2⟩ := hp l l' hl hc
    exact ⟨⟨L, hs.ended h1⟩, h2⟩
  · intro os s n p _ hj hp l l' hl hc
    have hcall : Steps env.toEnv (fun _ => True) s.eng (pollM R n s).2.eng := by
      unfold pollM
      split
      · exact .refl _
      · exact .one (.core (.poll _ _ _))
    rcases List.eq_nil_or_concat l' with rfl | ⟨l'', x, rfl⟩
    · -- this poll reported it
      obtain ⟨rfl, ho⟩ := List.append_inj' hl rfl
      have ho : (pollM R n s).1 = .eng .closeNotify := by simpa using ho
      have hrel : s.eng.release = true := by
        have := hj.conn
        have hpos := List.count_pos_iff.mpr hc
        cases hr : s.eng.release
        · have hr' : (shown s).release = false := hr
          rw [hr'] at this
          simp at this
          omega
        · rfl
      refine ⟨⟨(pollM R n s).2.eng.log, ?_⟩, by simp⟩
      unfold pollM at ho ⊢
      split at ho
      · rename_i e rest he
        have : ∀ cs, eventOutput e n cs ≠ .eng .closeNotify := by
          intro cs
          cases e with
          | peerCert =>
            cases cs with
            | nil => simp [eventOutput]
            | cons c _ => simp only [eventOutput]; split <;> simp
          | _ => simp [eventOutput]
        exact absurd ho (this _)
      · rename_i he
        simp only
        simp only [Output.eng.injEq] at ho
        have hn : nextApp (purge s.eng) = none ∧ (purge s.eng).closeRecv = true ∧
            (pollOutput n s.lastNow s.eng).2 = { purge s.eng with closeReported := true } := by
          revert ho
          unfold pollOutput
          dsimp only
          rw [if_pos (show (purge s.eng).release = true from hrel)]
          split
          · split <;> intro ho <;> simp at ho
          · rename_i hn
            unfold pollRest
            split
            · split <;> intro ho <;> simp at ho
            · split
              · rename_i hcl
                intro _
                simp only [Bool.and_eq_true] at hcl
                exact ⟨hn, hcl.1, rfl⟩
              · intro ho; simp at ho
        obtain ⟨hn, hcl, hs⟩ := hn
        rw [hs]
        refine ⟨hcl, ?_, [], rfl, by simp⟩
        intro r hr g1 g2
        unfold nextApp at hn
        rw [List.head?_eq_none_iff] at hn
        have : r ∈ (purge s.eng).rx.flatten.filter fun r => decide (r.rcd.ctype = ctAppData) := by
          rw [List.mem_filter]; exact ⟨hr, by simpa using g1⟩
        have hall : ∀ m : List Rx, m.dropWhile (·.isHandled) = [] → ∀ x ∈ m, x.isHandled = true := by
          intro m hm x hx
          induction m with
          | nil => cases hx
          | cons y m ih =>
            rw [List.dropWhile_cons] at hm
            split at hm
            · rename_i hy
              rcases List.mem_cons.mp hx with rfl | hx
              · exact hy
              · exact ih hm hx
            · cases hm
        rw [hall _ hn r this] at g2
        cases g2
    · rw [List.concat_eq_append, ← List.cons_append, ← List.append_assoc] at hl
      obtain ⟨rfl, hx⟩ := List.append_inj' hl rfl
      obtain ⟨⟨L, h1⟩, h2⟩ := hp l l'' rfl hc
      refine ⟨⟨L, hcall.ended h1⟩, ?_⟩
      intro b hb
      rw [List.concat_eq_append] at hb
      rcases List.mem_append.mp hb with hb | hb
      · exact h2 b hb
      · -- a poll cannot hand out application data any more
        have hx' : (pollM R n s).1 = .eng (.appData b) := by
          simp at hb hx
          rw [hx, ← hb]
        unfold pollM at hx'
        split at hx'
        · rename_i e rest he
          cases e with
          | peerCert =>
            revert hx'
            cases s.peerCerts with
            | nil => simp [eventOutput]
            | cons c _ => simp only [eventOutput]; split <;> simp
          | _ => simp [eventOutput] at hx'
        · simp only [Output.eng.injEq] at hx'
          have hw := (purge_ended h1).wait
          revert hx'
          unfold pollOutput
          dsimp only
          split
          · split
            · rename_i r hn
              obtain ⟨a, c, q1, _, q3, q4, _⟩ := nextApp_split hn
              exact (hw r (by rw [q1]; simp) q3 q4).elim
            · unfold pollRest
              repeat' split
              all_goals simp
          · unfold pollRest
            repeat' split
            all_goals simp

/-- The hypotheses are met: the client sends data, closes, and an attacker replays; the server hands out
the data, then CloseNotify. -/
def demoClose : List Call :=
  Demo.serverCalls Demo.pskEnv ++
    (Demo.clientSays Demo.pskEnv [.send [1, 2], .close, .poll 2000, .poll 2000]).map .packet ++
    List.replicate 3 (.poll 2000)

example : ((outputs (run S12.role Demo.pskEnv (S12.start Demo.pskEnv Demo.cfg 0) demoClose).1).filter
    fun | .eng (.packet _) => false | .eng (.timeout _) => false | _ => true)
    = [.connected, .eng (.appData [1, 2]), .eng .closeNotify] := by decide +kernel

end Verif.Props.App12

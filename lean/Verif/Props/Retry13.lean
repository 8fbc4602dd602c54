import Verif.Props.Shake13
import Verif.Props.MsgDemo
/-!
# C75: what a client makes of a HelloRetryRequest
-/
namespace Verif.Props.Retry13
open Verif Wire M E13
open Verif.E12 (outputs Call)

/-- The HelloRetryRequest names a configured suite and DTLS 1.3. -/
def Acceptable (env : PEnv) (h : ServerHello) : Prop :=
  h.random = hrrRandom ∧ h.suite ∈ env.allowed ∧
    ∃ d, (43, d) ∈ h.exts.getD [] ∧ env.parseServerVersion d = some 0xFEFC

theorem retryVersion_true {env : PEnv} {exts : List (Nat × Bytes)} (h : C13.retryVersion env exts false = true) :
    ∃ d, (43, d) ∈ exts ∧ env.parseServerVersion d = some 0xFEFC := by
  have key : ∀ (l : List (Nat × Bytes)) (ok : Bool), C13.retryVersion env l ok = true →
      ok = true ∨ ∃ d, (43, d) ∈ l ∧ env.parseServerVersion d = some 0xFEFC := by
    intro l
    induction l with
    | nil => intro ok h; exact .inl h
    | cons x l ih =>
      intro ok h
      obtain ⟨t, d⟩ := x
      have h' : C13.retryVersion env l
        (if t = 43 then (match env.parseServerVersion d with | some v => v == verDtls13 | none => ok) else ok) = true := h
      rcases ih _ h' with g | ⟨d', g1, g2⟩
      · split at g
        · next ht =>
          subst ht
          split at g
          · next v hv =>
            refine .inr ⟨d, List.mem_cons_self, ?_⟩
            rw [hv, show v = verDtls13 from eq_of_beq g]
          · exact .inl g
        · exact .inl g
      · exact .inr ⟨d', List.mem_cons_of_mem _ g1, g2⟩
  rcases key exts false h with g | g
  · cases g
  · exact g

/-- The functions before `helloRetry := true` leave the field alone. -/
theorem retryExtensions_flag {env : PEnv} (l : List (Nat × Bytes)) (s : Ses CSt) :
    wp (C13.retryExtensions env l) s (fun _ s' => s'.helloRetry = s.helloRetry ∧ s'.eng = s.eng) (fun _ _ => True) := by
  induction l generalizing s with
  | nil => exact ⟨rfl, rfl⟩
  | cons x l ih =>
    obtain ⟨t, d⟩ := x
    unfold C13.retryExtensions
    split
    · split
      · rw [bind_eq, wp_bind, wp_modify]; exact ih _
      · exact ih _
    · split
      · rw [bind_eq, wp_bind]
        cases hp : env.parseCookie d with
        | none => exact trivial
        | some c =>
          show wp _ s _ _
          exact ih _
      · exact ih _

theorem replaceTranscript_keeps (env : Env) (n : Nat) (e : Eng) :
    wp (replaceTranscript env n) e (fun _ e' => e'.suite = e.suite ∧ e'.log = e.log) (fun _ _ => True) := by
  cases hs : e.suite with
  | none => simp [wp, replaceTranscript, hs]
  | some suite => by_cases h : e.transcript.length < n <;> simp [wp, replaceTranscript, hs, h]

theorem advancePeerSeq_keeps (e : Eng) :
    wp advancePeerSeq e (fun _ e' => e'.suite = e.suite ∧ ∃ es, e'.log = es ++ e.log) (fun _ _ => True) := by
  by_cases h : e.peerSeq ≥ 65535
  · simp [wp, advancePeerSeq, h]
  · simp only [wp, advancePeerSeq, h, if_false]
    exact ⟨trivial, [_], rfl⟩

/-- **C75, in part.** A client that goes back to sending a ClientHello was in its first attempt, and got a
HelloRetryRequest with a configured suite, which is now in use, and the right version. It is then in its second attempt, in
which every further HelloRetryRequest is refused. The ClientHello it sends next has a share in a configured
group (`sendClientHello`). Missing: that the ServerHello keeps the suite, and that the group is not the one a share
was sent in already. Both are wrong (`suite_changes`, `nothing_changes`). -/
theorem retry_checked_partial (env : PEnv) (s : Ses CSt) :
    wp (C13.awaitServerHello env) s (fun new s' => new = .sendClientHello →
      s.helloRetry = false ∧ s'.helloRetry = true ∧ s'.kx = none ∧
      ∃ seq body h, .taken seq 2 body ∈ s'.eng.log ∧ env.parseServerHello body = some ([], h) ∧ Acceptable env h ∧
        s'.eng.suite = some h.suite)
      (fun _ _ => True) := by
  unfold C13.awaitServerHello
  simp only [bind_eq, pure_eq, wp_bind, wp_get]
  rw [wp_onEng]
  refine wp_mono (nextHandshake_ok env.toEnv mtServerHello s.eng (by decide)) ?_ (fun _ _ _ => trivial)
  intro m e ⟨hg, hm⟩
  rcases hm with ⟨rfl, rfl⟩ | ⟨bd, seq, body, rfl, hl, hp, ht⟩
  · intro h; cases h
  obtain ⟨h, rfl, hx⟩ := parseBody_serverHello hp
  dsimp only
  split
  · next hrr =>
    unfold C13.helloRetry
    rw [bind_eq, wp_bind, wp_get]
    split
    · rw [bind_eq, wp_bind]; exact trivial
    · next hflag =>
      rw [bind_eq, wp_bind]
      refine wp_mono (retryExtensions_flag _ _) ?_ (fun _ _ _ => trivial)
      intro _ s1 h1
      simp only [bind_eq, pure_eq, wp_bind]
      refine wp_check_of (fun hal => ?_) trivial
      rw [wp_setSuite]
      refine wp_check_of (fun hver => ?_) trivial
      rw [wp_onEng]
      refine wp_mono (replaceTranscript_keeps _ _ _) ?_ (fun _ _ _ => trivial)
      intro _ e2 h2
      rw [wp_onEng]
      refine wp_mono (advancePeerSeq_keeps _) ?_ (fun _ _ _ => trivial)
      intro _ e3 ⟨h3, es, h4⟩ _
      refine ⟨by simpa using hflag, rfl, rfl, seq, body, h, ?_, hx, ⟨hrr, List.contains_iff_mem.mp hal,
        retryVersion_true hver⟩, h3.trans h2.1⟩
      show _ ∈ e3.log
      rw [h4, h2.2]
      refine List.mem_append_right _ ?_
      show _ ∈ s1.eng.log
      rw [h1.2]
      show _ ∈ e.log
      rw [hl]; exact List.mem_cons_self
  · refine wp_mono (Shake13.Client.serverHello_ok h _) ?_ (fun _ _ _ => trivial)
    intro new s' g hn
    rw [g.1] at hn; cases hn

/-! ## What is not checked -/

section
open Demo

/-- Two suites with the same hash; messages are those of the code. -/
def two : PEnv :=
  Msg13.codec { fullEnv with
    allowed := [0x1301, 0x1303]
    suiteTag := fun s => if s = 0x1301 ∨ s = 0x1303 then some 1 else none
    suiteUnknown := fun s => s != 0x1301 && s != 0x1303
    verifyData := fun _ s t => some (List.replicate 32 (E12.Demo.sum (s ++ t))) } 150 [77, 78]

/-- A server that names suite 0x1303 in its HelloRetryRequest. -/
def fickle : PEnv := { two with retryBody := fun _ c g => two.retryBody 0x1303 c g }

def ficklyCalls : List Call := (rounds two fickle 4).cCalls ++ List.replicate 6 (.poll 2000)

/-- The suites of the messages of type ServerHello consumed, the last one first. -/
def suitesSeen (env : PEnv) (s : Ses CSt) : List Nat :=
  s.eng.log.filterMap fun e => match e with
    | .taken _ 2 body => (env.parseServerHello body).map (·.2.suite)
    | _ => none

def ficklyRun : List Ret × Ses CSt := run C13.role two (C13.start two cfg 0) ficklyCalls

/-- **C75.** The client connects with suite 0x1301 although the HelloRetryRequest named 0x1303. RFC 8446, section 4.1.4:
"Upon receiving the ServerHello, clients MUST check that the cipher suite supplied in the ServerHello is the same as that in
the HelloRetryRequest and otherwise abort the handshake". -/
theorem suite_changes :
    (outputs ficklyRun.1).count .connected = 1 ∧ suitesSeen two ficklyRun.2 = [0x1301, 0x1303] ∧
    ficklyRun.2.eng.suite = some 0x1301 := by decide +kernel

/-- A HelloRetryRequest for group 29 without cookie, in a record of its own. -/
def pointless : Bytes :=
  let exts : Bytes := [0, 43, 0, 2, 254, 252, 0, 51, 0, 2, 0, 29]
  let body : Bytes := [254, 253] ++ hrrRandom ++ [0, 19, 1, 0] ++ beBytes 2 exts.length ++ exts
  let msg : Bytes := [2] ++ beBytes 3 body.length ++ [0, 0] ++ [0, 0, 0] ++ beBytes 3 body.length ++ body
  [22, 254, 253] ++ [0, 0, 0, 0, 0, 0, 0, 0] ++ beBytes 2 msg.length ++ msg

def pointlessRun : List Ret × Ses CSt :=
  run C13.role two (C13.start two cfg 0) [.timeout 0, .poll 2000, .packet pointless, .poll 2000, .poll 2000]

/-- **C75.** A HelloRetryRequest that names the group a share was sent in and carries no cookie is answered with a second
ClientHello. Bytes 86 to 95 of both begin the key share: group 29, one byte of key. RFC 8446, sections 4.1.4 and 4.2.8:
"Clients MUST abort the handshake with an "illegal_parameter" alert if the HelloRetryRequest would not result in any change
in the ClientHello", and the client must verify that the selected group was not in its key_share. -/
theorem nothing_changes :
    pointlessRun.2.st = .awaitServerHello ∧ pointlessRun.2.helloRetry = true ∧
    (E12.Demo.packets pointlessRun.1).map (fun p => (p.drop 86).take 10) =
      [[0, 51, 0, 7, 0, 5, 0, 29, 0, 1], [0, 51, 0, 7, 0, 5, 0, 29, 0, 1]] := by decide +kernel

end

end Verif.Props.Retry13

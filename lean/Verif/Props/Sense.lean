import Verif.Props.Dtls
import Verif.Props.ShakeDemo12
/-!
# Version auto-sensing behind the public type `Dtls`
-/
namespace Verif.Props.Sense
open Verif Verif.Dtls
open Verif.E12 (Call Ret ApiRes Output toApi)

/-! ## Undecided values -/

/-- While the version is open, data and close are refused and change nothing. -/
theorem pending_refuses (env : Env) (i : Inner) (h : i.isPending = true) (c : Call) (hc : c = .close ∨ ∃ d, c = .send d) :
    call env (some i) (.api c) = (.res (.err .handshakePending), some i) := by
  cases i with
  | client12 => cases h
  | server12 => cases h
  | client13 => cases h
  | server13 e s =>
    have h : s.autoMode = true := h
    rcases hc with rfl | ⟨d, rfl⟩ <;> simp [call, callInner, h, refused]
  | clientPending p q => rcases hc with rfl | ⟨d, rfl⟩ <;> rfl

/-- C45: a datagram that answers nothing leaves the undecided client as it is. But it is reported as
an error, which refutes C23. -/
theorem stray_datagram (env : Env) (q : Auto.Pending) (h : Hybrid) (p : Bytes)
    (hp : Auto.serverHelloVersion p = .unknown) :
    call env (some (.clientPending q h)) (.api (.packet p)) =
    (.res (.err .unexpectedMessage), some (.clientPending q h)) := by
  simp [call, callInner, handlePacket, resolve, hp]

example : Auto.serverHelloVersion [] = .unknown ∧ Auto.serverHelloVersion [0x17, 0xFE, 0xFD] = .unknown := by decide

/-- C45: a DTLS 1.2 answer makes a DTLS 1.2 client of it: the one that sent the hybrid ClientHello,
after one `handle_timeout`, with this datagram. -/
theorem answer_12 (env : Env) (q : Auto.Pending) (h : Hybrid) (p : Bytes)
    (hp : Auto.serverHelloVersion p = .dtls12) (h0 : 0 < env.lim.handshakeTimeout) :
    ∃ s1, E12.call E12.C12.role env.hyb12 (E12.C12.startHybrid env.hyb12 env.lim12 h.random h.fragment q.lastNow)
        (.timeout q.lastNow) = (.res .ok, s1) ∧
      call env (some (.clientPending q h)) (.api (.packet p)) =
      ((E12.call E12.C12.role env.hyb12 s1 (.packet p)).1,
        some (.client12 env.hyb12 (E12.call E12.C12.role env.hyb12 s1 (.packet p)).2)) := by
  obtain ⟨s1, h1⟩ := fresh_client12 env.hyb12 env.lim12 h.random h.fragment q.lastNow q.lastNow h0
  refine ⟨s1, ?_, ?_⟩
  · show (Ret.res (toApi (E12.handleTimeoutM _ _ _ _).1), (E12.handleTimeoutM _ _ _ _).2) = _
    rw [h1]; rfl
  · simp only [call, callInner, handlePacket, resolve, hp, h1]
    rfl

/-- C45: a DTLS 1.3 answer makes a DTLS 1.3 client of it. -/
theorem answer_13 (env : Env) (q : Auto.Pending) (h : Hybrid) (p : Bytes)
    (hp : Auto.serverHelloVersion p = .dtls13) (h0 : 0 < env.lim.handshakeTimeout) :
    ∃ s1, E13.call E13.C13.role env.hyb13
        (E13.C13.startHybrid env.hyb13 env.lim h.random h.transcript h.kx q.lastNow) (.timeout q.lastNow) = (.res .ok, s1) ∧
      call env (some (.clientPending q h)) (.api (.packet p)) =
      ((E13.call E13.C13.role env.hyb13 s1 (.packet p)).1,
        some (.client13 env.hyb13 (E13.call E13.C13.role env.hyb13 s1 (.packet p)).2)) := by
  obtain ⟨s1, h1⟩ := fresh_client13 env.hyb13 env.lim h.random h.transcript h.kx q.lastNow q.lastNow h0
  refine ⟨s1, ?_, ?_⟩
  · show (Ret.res (toApi (E13.handleTimeoutM _ _ _ _).1), (E13.handleTimeoutM _ _ _ _).2) = _
    rw [h1]; rfl
  · simp only [call, callInner, handlePacket, resolve, hp, h1]
    rfl

example : 0 < Props.Dtls.demo.lim.handshakeTimeout ∧
    Auto.serverHelloVersion (Props.Auto.framed (List.replicate 10 0) 2 (List.replicate 8 0) Props.Auto.sh13.body [] []) =
      .dtls13 := by decide +kernel

/-! ## The decision is final -/

theorem replay_version (env : Env) (s : E13.Ses E13.SSt) :
    (fallback env s).2 = none ∨ protocolVersion (fallback env s).2 = some .dtls12 := by
  unfold fallback
  split
  · exact .inl rfl
  · dsimp only
    split
    · exact .inr rfl
    · exact .inl rfl

theorem version_call (env : Env) (d : Dtls) (c : DCall) (v : Version) (h : protocolVersion d = some v) :
    (call env d c).2 = none ∨ protocolVersion (call env d c).2 = some v := by
  cases d with
  | none => cases h
  | some i =>
    cases c with
    | setActive b =>
      show (setActive env b (some i)).2 = none ∨ protocolVersion (setActive env b (some i)).2 = some v
      cases i with
      | clientPending => cases h
      | server13 e s =>
        have ha : s.autoMode = false := by
          cases hs : s.autoMode with
          | false => rfl
          | true => simp [protocolVersion, hs] at h
        cases b <;> simp_all [setActive, isActive, protocolVersion]
      | _ => cases b <;> first | (exact .inr h) | (exact .inl rfl)
    | api c =>
      cases i with
      | client12 e s => rw [client12_call]; exact .inr h
      | server12 e s => rw [server12_call]; exact .inr h
      | client13 e s => rw [client13_call]; exact .inr h
      | server13 e s =>
        have ha : s.autoMode = false := by
          cases hs : s.autoMode with
          | false => rfl
          | true => simp [protocolVersion, hs] at h
        rw [server13_call _ _ _ _ ha]
        refine .inr ?_
        have h2 := E13.S13.call_auto (env := e) s c ha
        show (if (E13.call E13.S13.role e s c).2.autoMode = true then none else some Version.dtls13) = some v
        rw [h2]
        simp [protocolVersion, ha] at h
        simp [h]
      | clientPending => cases h

/-- A decided version never changes, whatever follows, role switches included. -/
theorem version_final (env : Env) (d : Dtls) (cs : List DCall) (v : Version) (h : protocolVersion d = some v) :
    (run env d cs).2 = none ∨ protocolVersion (run env d cs).2 = some v := by
  induction cs generalizing d with
  | nil => exact .inr h
  | cons c cs ih =>
    rw [run_cons]
    split
    · exact version_call env d c v h
    · rcases version_call env d c v h with h1 | h1
      · rw [h1]
        dsimp only
        cases cs with
        | nil => exact .inl rfl
        | cons c' cs' =>
          refine .inl ?_
          rw [run_cons]
          have hn : call env none c' = (.res .panic, none) ∨ (call env none c').2 = none := by
            cases c' with
            | api c => exact .inr rfl
            | setActive b => cases b <;> exact .inr rfl
          have hn : (call env none c').2 = none := by rcases hn with h | h; rw [h]; exact h
          have hall : ∀ l, (run env none l).2 = none := by
            intro l
            induction l with
            | nil => rfl
            | cons c l ih =>
              have hc : (call env none c).2 = none := by
                cases c with
                | api c => rfl
                | setActive b => cases b <;> rfl
              rw [run_cons, hc]
              split
              · rfl
              · exact ih
          rw [hn]
          split
          · rfl
          · exact hall _
      · exact ih _ h1

/-! ## The server's decision -/

theorem toApi_fb {α : Type} (r : Res α) : toApi r = .err .dtls12Fallback ↔ r = .fail (.fatal .dtls12Fallback) := by
  cases r with
  | ok a => constructor <;> intro h <;> cases h
  | fail f =>
    cases f with
    | fatal e => constructor <;> intro h <;> cases h <;> rfl
    | _ => constructor <;> intro h <;> cases h

/-- The datagram completes a ClientHello that is good for DTLS 1.2 and does not offer DTLS 1.3. -/
def Asks12 (e : E13.PEnv) (s : E13.Ses E13.SSt) (p : Bytes) : Prop :=
  ∃ e1 ch e2, E13.parsePacket e.toEnv p s.eng = (.ok (), e1) ∧
    E13.nextHandshakeWith e.toEnv true true E13.mtClientHello e1 = (.ok (some (.clientHello ch)), e2) ∧ E13.S13.Old e ch

/-- The datagrams among the calls. -/
def datagrams : List Call → List Bytes
  | [] => []
  | .packet p :: cs => p :: datagrams cs
  | _ :: cs => datagrams cs

theorem wantsPsk_total (env : Env) (ps : List Bytes) : wantsPsk env ps ≠ none := by
  induction ps with
  | nil => simp [wantsPsk]
  | cons p ps ih =>
    unfold wantsPsk
    split
    · simp
    · exact ih
    · rename_i h; exact absurd h (Props.Auto.psk_peek_total p _ _)

/-- What the fallback amounts to: a DTLS 1.2 server, after one `handle_timeout`, is fed the retained
datagrams up to the first that fails. -/
theorem fallback_life (env : Env) (s : E13.Ses E13.SSt) (h0 : 0 < env.lim.handshakeTimeout) :
    ∃ b k, (env.psk = false → b = false) ∧ k ≤ s.retained.length ∧
      ((fallback env s).1 = .ok → k = s.retained.length) ∧
      (fallback env s).2 = some (.server12 (env.back b) (E12.run E12.S12.role (env.back b)
        (E12.S12.start (env.back b) env.lim12 s.lastNow)
        (.timeout s.lastNow :: (s.retained.take k).map .packet)).2) ∧
      (¬ Ends (.res (fallback env s).1) → ∀ r ∈ (E12.run E12.S12.role (env.back b)
        (E12.S12.start (env.back b) env.lim12 s.lastNow)
        (.timeout s.lastNow :: (s.retained.take k).map .packet)).1, ¬ Ends r) := by
  have hb : ∃ b, (if env.psk then wantsPsk env s.retained else some false) = some b ∧ (env.psk = false → b = false) := by
    cases hp : env.psk with
    | false => exact ⟨false, rfl, fun _ => rfl⟩
    | true =>
      cases hw : wantsPsk env s.retained with
      | none => exact absurd hw (wantsPsk_total env _)
      | some b => exact ⟨b, by simp, fun h => by cases h⟩
  obtain ⟨b, hb, hb'⟩ := hb
  obtain ⟨t, ht⟩ := fresh_server12 (env.back b) env.lim12 s.lastNow s.lastNow h0
  obtain ⟨k, hk, g1, g2, g3⟩ := replay_run (env.back b) s.retained t
  have hf : fallback env s = ((replay (env.back b) s.retained t).1, some (.server12 (env.back b) (replay (env.back b) s.retained t).2)) := by
    unfold fallback
    rw [hb]
    dsimp only
    rw [ht]
    rfl
  have hru : E12.run E12.S12.role (env.back b) (E12.S12.start (env.back b) env.lim12 s.lastNow)
        (.timeout s.lastNow :: (s.retained.take k).map .packet) =
      (.res .ok :: (E12.run E12.S12.role (env.back b) t ((s.retained.take k).map .packet)).1,
        (E12.run E12.S12.role (env.back b) t ((s.retained.take k).map .packet)).2) := by
    have hc : E12.call E12.S12.role (env.back b) (E12.S12.start (env.back b) env.lim12 s.lastNow) (.timeout s.lastNow) =
        (.res .ok, t) := by
      show (Ret.res (toApi (E12.handleTimeoutM _ _ _ _).1), (E12.handleTimeoutM _ _ _ _).2) = _
      rw [ht]; rfl
    refine (run12_cons E12.S12.role _ _ _ _).trans ?_
    have hc1 := congrArg Prod.fst hc
    have hc2 := congrArg Prod.snd hc
    dsimp only at hc1 hc2
    rw [if_neg (by rw [hc1]; exact Props.Dtls.ok_not_ends), hc1]
    rw [show (E12.call E12.S12.role (env.back b) (E12.S12.start (env.back b) env.lim12 s.lastNow) (.timeout s.lastNow)).2 = t from hc2]
  refine ⟨b, k, hb', hk, ?_, ?_, ?_⟩
  · rw [hf]; exact g2
  · rw [hf, hru, g1]
  · rw [hf, hru]
    intro h r hr
    rcases List.mem_cons.mp hr with rfl | hr
    · exact Props.Dtls.ok_not_ends
    · exact g3 h r hr

/-- C45 for the server: the undecided server becomes a DTLS 1.2 server exactly with the datagram that
completes a ClientHello without DTLS 1.3. Otherwise it stays a DTLS 1.3 server, decided or not. -/
theorem server_decides (env : Env) (e : E13.PEnv) (s : E13.Ses E13.SSt) (p : Bytes) (ha : s.autoMode = true)
    (hs : s.st = .awaitClientHello) (he : ∀ c n, e.schemeError c n ≠ some .dtls12Fallback) (h0 : 0 < env.lim.handshakeTimeout)
    (hl : s.retained.length < E13.maxRetained) :
    (Asks12 e s p → ∃ b s', (call env (some (.server13 e s)) (.api (.packet p))).2 = some (.server12 (env.back b) s')) ∧
    (¬ Asks12 e s p → call env (some (.server13 e s)) (.api (.packet p)) =
      ((E13.call E13.S13.role e s (.packet p)).1, some (.server13 e (E13.call E13.S13.role e s (.packet p)).2))) := by
  have key := E13.S13.handlePacket_fb he p s
  have hcall : call env (some (.server13 e s)) (.api (.packet p)) =
    (.res (handlePacket env p (.server13 e s)).1, (handlePacket env p (.server13 e s)).2) := rfl
  constructor
  · intro hq
    have hfb := key.mpr ⟨ha, hs, hl, hq⟩
    obtain ⟨b, k, _, _, _, h3, _⟩ := fallback_life env (E13.handlePacketM E13.S13.role e p s).2 h0
    rw [hcall]
    unfold handlePacket
    dsimp only
    rw [if_pos ⟨ha, (toApi_fb _).mpr hfb⟩]
    exact ⟨b, _, h3⟩
  · intro hq
    rw [hcall]
    unfold handlePacket
    dsimp only
    rw [if_neg fun h => hq (key.mp ((toApi_fb _).mp h.2)).2.2.2]
    rfl

/-! ## Nothing the client sent is lost -/

theorem datagrams_cons (c : Call) (cs : List Call) :
    datagrams (c :: cs) = datagrams [c] ++ datagrams cs := by cases c <;> rfl

theorem none_run (env : Env) (cs : List Call) : (run env none (cs.map .api)).2 = none := by
  cases cs with
  | nil => rfl
  | cons c cs => rfl

/-- An undecided server that still waits for the ClientHello holds what it was fed, up to the limit. -/
theorem retained_run (env : Env) (e : E13.PEnv) (s0 : E13.Ses E13.SSt) (cs : List Call) (e' : E13.PEnv) (s : E13.Ses E13.SSt)
    (hl : s0.retained.length ≤ E13.maxRetained)
    (hn : ∀ r ∈ (run env (some (.server13 e s0)) (cs.map .api)).1, ¬ Ends r)
    (h : (run env (some (.server13 e s0)) (cs.map .api)).2 = some (.server13 e' s))
    (ha : s.autoMode = true) (hs : s.st = .awaitClientHello) :
    e' = e ∧ s0.autoMode = true ∧ s0.st = .awaitClientHello ∧
      s.retained = (s0.retained ++ datagrams cs).take E13.maxRetained := by
  induction cs generalizing s0 with
  | nil =>
    cases h
    refine ⟨rfl, ha, hs, ?_⟩
    rw [datagrams, List.append_nil, List.take_of_length_le hl]
  | cons c cs ih =>
    rw [List.map_cons, run_cons] at hn h
    by_cases hend : Ends (call env (some (.server13 e s0)) (.api c)).1
    · rw [if_pos hend] at hn
      exact absurd hend (hn _ (.head _))
    rw [if_neg hend] at hn h
    dsimp only at hn h
    have hn' := fun r hr => hn r (List.mem_cons_of_mem _ hr)
    -- the value after the call is again such a server
    by_cases hc : ∃ p, c = .packet p
    · obtain ⟨p, rfl⟩ := hc
      have hcall : call env (some (.server13 e s0)) (.api (.packet p)) =
        (.res (handlePacket env p (.server13 e s0)).1, (handlePacket env p (.server13 e s0)).2) := rfl
      rw [hcall] at hn' h
      unfold handlePacket at hn' h
      dsimp only at hn' h
      split at h
      · exfalso
        rename_i hq
        rcases replay_version env (E13.handlePacketM E13.S13.role e p s0).2 with hf | hf
        · rw [hf, none_run] at h; cases h
        · rcases version_final env _ (cs.map .api) _ hf with hg | hg
          · rw [hg] at h; cases h
          · rw [h] at hg
            simp [protocolVersion, ha] at hg
      · rename_i hq
        rw [if_neg hq] at hn'
        have hlen : ∀ t : E13.Ses E13.SSt, (E13.handlePacketM E13.S13.role e p s0).2 = t → t.autoMode = true →
            s0.st = .awaitClientHello → s0.autoMode = true ∧
            t.retained = if s0.retained.length < E13.maxRetained then s0.retained ++ [p] else s0.retained := by
          intro t ht hta hst
          subst ht
          exact E13.handlePacketM_retains (R := E13.S13.role) (fun st => E13.S13.step_kp st) p s0
            ((E13.S13.first_iff _).mpr hst) hta
        -- whether the decision is still open afterwards
        cases hx : (E13.handlePacketM E13.S13.role e p s0).2.autoMode with
        | false =>
          exfalso
          have hv : protocolVersion (some (.server13 e (E13.handlePacketM E13.S13.role e p s0).2)) = some .dtls13 := by
            show (if (E13.handlePacketM E13.S13.role e p s0).2.autoMode = true then none else some Version.dtls13) = _
            rw [hx]; rfl
          rcases version_final env _ (cs.map .api) _ hv with hg | hg
          · rw [hg] at h; cases h
          · rw [h] at hg
            simp [protocolVersion, ha] at hg
        | true =>
          obtain ⟨i1, i2, i3, i4⟩ := ih _ (E13.handlePacketM_bound (R := E13.S13.role)
            (fun st => E13.S13.step_kp (env := e) st) p s0 hl) hn' h
          have hst := E13.S13.call_await (env := e) s0 (.packet p) i3
          obtain ⟨j1, j2⟩ := hlen _ rfl i2 hst
          refine ⟨i1, j1, hst, ?_⟩
          rw [i4, j2, datagrams_cons]
          split
          · simp [datagrams]
          · have : s0.retained.length = E13.maxRetained := by omega
            rw [List.take_append_of_le_length (by omega), List.take_append_of_le_length (by omega)]
    · have hnp : ∀ p, c ≠ .packet p := fun p hp => hc ⟨p, hp⟩
      by_cases hq : s0.autoMode && refused c
      · have hcall : call env (some (.server13 e s0)) (.api c) = (.res (.err .handshakePending), some (.server13 e s0)) := by
          cases c with
          | packet p => exact absurd rfl (hnp p)
          | _ => simp only [call, callInner]; rw [if_pos hq]
        rw [hcall] at hn' h
        obtain ⟨i1, i2, i3, i4⟩ := ih _ hl hn' h
        refine ⟨i1, i2, i3, ?_⟩
        rw [i4, datagrams_cons]
        cases c with
        | packet p => exact absurd rfl (hnp p)
        | _ => rfl
      · have hcall : call env (some (.server13 e s0)) (.api c) =
            ((E13.call E13.S13.role e s0 c).1, some (.server13 e (E13.call E13.S13.role e s0 c).2)) := by
          cases c with
          | packet p => exact absurd rfl (hnp p)
          | _ => simp only [call, callInner]; rw [if_neg hq]
        rw [hcall] at hn' h
        obtain ⟨k1, k2⟩ := E13.call_am (R := E13.S13.role) (fun st => E13.S13.step_kp (env := e) st) s0 c hnp
        obtain ⟨i1, i2, i3, i4⟩ := ih (E13.call E13.S13.role e s0 c).2 (by rw [k2]; exact hl) hn' h
        refine ⟨i1, k1.symm.trans i2, E13.S13.call_await s0 c i3, ?_⟩
        rw [i4, datagrams_cons, k2]
        cases c with
        | packet p => exact absurd rfl (hnp p)
        | _ => rfl

/-- C45: when an auto-sensing server falls back, its DTLS 1.2 server is fed every datagram since the
construction, in order, up to the first that fails; if none fails, all of them. -/
theorem fallback_loses_nothing (env : Env) (now : Nat) (cs : List Call) (p : Bytes) (e : E13.PEnv) (s : E13.Ses E13.SSt)
    (h0 : 0 < env.lim.handshakeTimeout) (hp : env.pskOnly = false)
    (he : ∀ c n, e.schemeError c n ≠ some .dtls12Fallback)
    (hn : ∀ r ∈ (run env (newAuto env now) (cs.map .api)).1, ¬ Ends r)
    (h : (run env (newAuto env now) (cs.map .api)).2 = some (.server13 e s))
    (hfb : protocolVersion (call env (some (.server13 e s)) (.api (.packet p))).2 = some .dtls12) :
    Asks12 e s p ∧ ∃ b k, k ≤ (datagrams cs ++ [p]).length ∧
      ((call env (some (.server13 e s)) (.api (.packet p))).1 = .res .ok → k = (datagrams cs ++ [p]).length) ∧
      (call env (some (.server13 e s)) (.api (.packet p))).2 =
        some (.server12 (env.back b) (E12.run E12.S12.role (env.back b) (E12.S12.start (env.back b) env.lim12 s.lastNow)
          (.timeout s.lastNow :: (((datagrams cs ++ [p]).take k).map .packet))).2) := by
  have hnew : newAuto env now = some (.server13 env.e13 (E13.S13.start env.e13 env.lim now true)) := by
    unfold newAuto; rw [hp]; rfl
  have hcall : call env (some (.server13 e s)) (.api (.packet p)) =
    (.res (handlePacket env p (.server13 e s)).1, (handlePacket env p (.server13 e s)).2) := rfl
  rw [hcall] at hfb ⊢
  unfold handlePacket at hfb ⊢
  dsimp only at hfb ⊢
  by_cases hq : s.autoMode = true ∧ toApi (E13.handlePacketM E13.S13.role e p s).1 = .err .dtls12Fallback
  · rw [if_pos hq] at hfb ⊢
    obtain ⟨ha, hx⟩ := hq
    have hx := (toApi_fb _).mp hx
    rw [hnew] at hn h
    obtain ⟨_, hs, hl, hq⟩ := (E13.S13.handlePacket_fb he p s).mp hx
    obtain ⟨r1, r2⟩ := E13.S13.handlePacket_fb_kept he p s hx
    obtain ⟨b, k, _, k2, k3, k4, _⟩ := fallback_life env (E13.handlePacketM E13.S13.role e p s).2 h0
    have hret : s.retained = (datagrams cs).take E13.maxRetained :=
      (retained_run env _ _ cs e s (Nat.zero_le _) hn h ha hs).2.2.2
    have hdl : (datagrams cs).length ≤ E13.maxRetained := by
      rw [hret, List.length_take] at hl; omega
    rw [List.take_of_length_le hdl] at hret
    rw [r1, hret] at k2 k3 k4
    rw [r2] at k4
    refine ⟨hq, b, k, k2, fun h => k3 (by injection h), k4⟩
  · rw [if_neg hq] at hfb
    exfalso
    revert hfb
    show (if (E13.handlePacketM E13.S13.role e p s).2.autoMode = true then none else some Version.dtls13) = some .dtls12 → False
    split <;> intro h <;> cases h

/-- A ClientHello without supported_versions. -/
def oldHello : E13.ClientHello :=
  { version := 0xFEFD, random := [], sessionId := [], cookie := [], suites := [0xC02B], compressions := [0],
    exts := [(10, [29])] }

/-- The toy configuration with a DTLS 1.3 server that reads every ClientHello as one of a DTLS 1.2
client. -/
def oldDemo : Env := { Props.Dtls.demo with
  e13 := { E13.Demo.plainEnv with parseClientHello := fun _ _ => some ([], oldHello) } }

/-- A ClientHello datagram of a DTLS 1.2 client. -/
def hello12 : Bytes :=
  (E12.Demo.packets (E12.run E12.C12.role E12.Demo.certEnv (E12.C12.start E12.Demo.certEnv E12.Demo.cfg 0)
    [.timeout 0, .poll 2000]).1).headD []

/-- A life with a fallback: two timeouts and a stray datagram before the ClientHello. -/
def oldCalls : List Call := [.timeout 5, .packet [1, 2, 3], .timeout 7]

example : (∀ r ∈ (run oldDemo (newAuto oldDemo 0) (oldCalls.map .api)).1, ¬ Ends r) ∧
    protocolVersion (run oldDemo (newAuto oldDemo 0) (oldCalls.map .api)).2 = none ∧
    protocolVersion (run oldDemo (newAuto oldDemo 0) ((oldCalls ++ [Call.packet hello12]).map .api)).2 = some .dtls12 ∧
    datagrams oldCalls = [[1, 2, 3]] ∧ 0 < oldDemo.lim.handshakeTimeout ∧ oldDemo.pskOnly = false := by
  decide +kernel

/-! ## The value is never empty -/

theorem api_keeps (env : Env) (h0 : 0 < env.lim.handshakeTimeout) (d : Dtls) (hd : d ≠ none) (c : Call) :
    (call env d (.api c)).2 ≠ none := by
  cases d with
  | none => exact absurd rfl hd
  | some i =>
    cases i with
    | client12 e s => rw [client12_call]; simp
    | server12 e s => rw [server12_call]; simp
    | client13 e s => rw [client13_call]; simp
    | server13 e s =>
      cases c with
      | packet p =>
        show (handlePacket env p (.server13 e s)).2 ≠ none
        unfold handlePacket
        dsimp only
        split
        · obtain ⟨b, k, _, _, _, h, _⟩ := fallback_life env (E13.handlePacketM E13.S13.role e p s).2 h0
          rw [h]; simp
        · simp
      | _ => simp only [call, callInner]; split <;> simp
    | clientPending q h =>
      cases c with
      | packet p =>
        cases hv : Auto.serverHelloVersion p with
        | unknown => rw [stray_datagram env q h p hv]; simp
        | panic => simp [call, callInner, handlePacket, resolve, hv]
        | dtls12 => obtain ⟨s1, _, h1⟩ := answer_12 env q h p hv h0; rw [h1]; simp
        | dtls13 => obtain ⟨s1, _, h1⟩ := answer_13 env q h p hv h0; rw [h1]; simp
      | _ => simp [call, callInner]

/-- With a handshake timeout above zero, a value is never left without a session. -/
theorem never_empty (env : Env) (h0 : 0 < env.lim.handshakeTimeout) (d : Dtls) (hd : d ≠ none) (cs : List Call) :
    (run env d (cs.map .api)).2 ≠ none := by
  induction cs generalizing d with
  | nil => exact hd
  | cons c cs ih =>
    rw [List.map_cons, run_cons]
    split
    · exact api_keeps env h0 d hd c
    · exact ih _ (api_keeps env h0 d hd c)

/-- C22 is false for a handshake timeout of zero, which the configuration accepts: the answer to the
hybrid ClientHello makes `handle_packet` fail and every later call panic. -/
theorem zero_timeout_panics (env : Env) (h0 : env.lim.handshakeTimeout = 0) (q : Auto.Pending) (h : Hybrid) (p : Bytes)
    (hp : Auto.serverHelloVersion p = .dtls12 ∨ Auto.serverHelloVersion p = .dtls13) (c : Call) :
    run env (some (.clientPending q h)) [.api (.packet p), .api c] = ([.res (.err .timeoutConnect), .res .panic], none) := by
  have ha : ∀ (t : Timer.Timers) (now : Nat) (j : Int), t.connect = .unarmed →
      (t.handle 0 now j).2 = .connectTimeout := by
    intro t now j h
    simp only [Timer.Timers.handle, Timer.Timers.arm, h, if_true, Nat.add_zero]
    split <;> simp [Timer.Timeout.expired]
  have h12 : ∀ e : E12.Eng, e.timers.connect = .unarmed → e.cfg.handshakeTimeout = 0 → ∀ env now,
      (E12.handleTimeout env now e).1 = .fail (.fatal .timeoutConnect) := by
    intro e h1 h2 env now
    have ht := ha e.timers now (env.jitter e.tick) h1
    unfold E12.handleTimeout
    rw [h2, ← Prod.eta (e.timers.handle 0 now (env.jitter e.tick)), ht]
  have h13 : ∀ e : E13.Eng, e.timers.connect = .unarmed → e.cfg.handshakeTimeout = 0 → ∀ env now,
      (E13.handleTimeout env now e).1 = .fail (.fatal .timeoutConnect) := by
    intro e h1 h2 env now
    have ht := ha e.timers now (env.jitter e.tick) h1
    unfold E13.handleTimeout
    rw [h2, ← Prod.eta (e.timers.handle 0 now (env.jitter e.tick)), ht]
  have hc : call env (some (.clientPending q h)) (.api (.packet p)) = (.res (.err .timeoutConnect), none) := by
    rcases hp with hp | hp
    · simp only [call, callInner, handlePacket, resolve, hp]
      have hr : (E12.handleTimeoutM E12.C12.role env.hyb12 q.lastNow
          (E12.C12.startHybrid env.hyb12 env.lim12 h.random h.fragment q.lastNow)).1 = .fail (.fatal .timeoutConnect) := by
        unfold E12.handleTimeoutM
        simp only [M.bind_eq, M.bind, M.andThen, M.modify, E12.onEng, M.zoom]
        rw [h12 _ rfl h0]
      rw [hr]; rfl
    · simp only [call, callInner, handlePacket, resolve, hp]
      have hr : (E13.handleTimeoutM E13.C13.role env.hyb13 q.lastNow
          (E13.C13.startHybrid env.hyb13 env.lim h.random h.transcript h.kx q.lastNow)).1 = .fail (.fatal .timeoutConnect) := by
        unfold E13.handleTimeoutM
        simp only [M.bind_eq, M.bind, M.andThen, M.modify, E13.onEng, M.zoom]
        rw [h13 _ rfl h0]
      rw [hr]; rfl
  rw [run_cons, hc, if_neg (by intro h; rcases h with h | h | h <;> cases h)]
  rfl

/-! ## Every session behind the public type is one of those proved about -/

/-- The session is in a state some history of calls of its own reaches, from one of the beginnings of
`E12.Start` or `E13.Start`; `live`: without a panic. -/
def Reached (live : Prop) : Inner → Prop
  | .client12 e s => ∃ cfg s0 cs, E12.Start e cfg E12.C12.role s0 ∧ s = (E12.run E12.C12.role e s0 cs).2 ∧
      (live → ∀ r ∈ (E12.run E12.C12.role e s0 cs).1, ¬ Ends r)
  | .server12 e s => ∃ cfg s0 cs, E12.Start e cfg E12.S12.role s0 ∧ s = (E12.run E12.S12.role e s0 cs).2 ∧
      (live → ∀ r ∈ (E12.run E12.S12.role e s0 cs).1, ¬ Ends r)
  | .client13 e s => ∃ cfg s0 cs, E13.Start e cfg E13.C13.role s0 ∧ s = (E13.run E13.C13.role e s0 cs).2 ∧
      (live → ∀ r ∈ (E13.run E13.C13.role e s0 cs).1, ¬ Ends r)
  | .server13 e s => ∃ cfg s0 cs, E13.Start e cfg E13.S13.role s0 ∧ s = (E13.run E13.S13.role e s0 cs).2 ∧
      (live → ∀ r ∈ (E13.run E13.S13.role e s0 cs).1, ¬ Ends r)
  | .clientPending .. => True

theorem reach12 {R : E12.Role} {e : E12.PEnv} {cfg : E12.Cfg} {s : E12.Ses R.St} (c : Call)
    (h : ∃ s0 cs, E12.Start e cfg R s0 ∧ s = (E12.run R e s0 cs).2 ∧ ∀ r ∈ (E12.run R e s0 cs).1, ¬ Ends r) :
    ∃ s0 cs, E12.Start e cfg R s0 ∧ (E12.call R e s c).2 = (E12.run R e s0 cs).2 ∧
      (¬ Ends (E12.call R e s c).1 → ∀ r ∈ (E12.run R e s0 cs).1, ¬ Ends r) := by
  obtain ⟨s0, cs, h1, rfl, h3⟩ := h
  refine ⟨s0, cs ++ [c], h1, ?_, ?_⟩
  · rw [run12_append _ _ _ _ _ h3, run12_one]
  · rw [run12_append _ _ _ _ _ h3, run12_one]
    intro hc r hr
    rcases List.mem_append.mp hr with hr | hr
    · exact h3 r hr
    · rw [List.mem_singleton.mp hr]; exact hc

theorem reach13 {R : E13.Role} {e : E13.PEnv} {cfg : E13.Cfg} {s : E13.Ses R.St} (c : Call)
    (h : ∃ s0 cs, E13.Start e cfg R s0 ∧ s = (E13.run R e s0 cs).2 ∧ ∀ r ∈ (E13.run R e s0 cs).1, ¬ Ends r) :
    ∃ s0 cs, E13.Start e cfg R s0 ∧ (E13.call R e s c).2 = (E13.run R e s0 cs).2 ∧
      (¬ Ends (E13.call R e s c).1 → ∀ r ∈ (E13.run R e s0 cs).1, ¬ Ends r) := by
  obtain ⟨s0, cs, h1, rfl, h3⟩ := h
  refine ⟨s0, cs ++ [c], h1, ?_, ?_⟩
  · rw [run13_append _ _ _ _ _ h3, run13_one]
  · rw [run13_append _ _ _ _ _ h3, run13_one]
    intro hc r hr
    rcases List.mem_append.mp hr with hr | hr
    · exact h3 r hr
    · rw [List.mem_singleton.mp hr]; exact hc

theorem reach12_two {R : E12.Role} {e : E12.PEnv} {cfg : E12.Cfg} {s t : E12.Ses R.St} {c0 : Call} (c : Call)
    (h : E12.Start e cfg R s) (ht : E12.call R e s c0 = (.res .ok, t)) :
    ∃ s0 cs, E12.Start e cfg R s0 ∧ (E12.call R e t c).2 = (E12.run R e s0 cs).2 ∧
      (¬ Ends (E12.call R e t c).1 → ∀ r ∈ (E12.run R e s0 cs).1, ¬ Ends r) := by
  refine reach12 c ⟨s, [c0], h, ?_, ?_⟩
  · rw [run12_one, ht]
  · rw [run12_one, ht]
    intro r hr
    rw [List.mem_singleton.mp hr]
    exact Props.Dtls.ok_not_ends

theorem reach13_two {R : E13.Role} {e : E13.PEnv} {cfg : E13.Cfg} {s t : E13.Ses R.St} {c0 : Call} (c : Call)
    (h : E13.Start e cfg R s) (ht : E13.call R e s c0 = (.res .ok, t)) :
    ∃ s0 cs, E13.Start e cfg R s0 ∧ (E13.call R e t c).2 = (E13.run R e s0 cs).2 ∧
      (¬ Ends (E13.call R e t c).1 → ∀ r ∈ (E13.run R e s0 cs).1, ¬ Ends r) := by
  refine reach13 c ⟨s, [c0], h, ?_, ?_⟩
  · rw [run13_one, ht]
  · rw [run13_one, ht]
    intro r hr
    rw [List.mem_singleton.mp hr]
    exact Props.Dtls.ok_not_ends

theorem api_reached (env : Env) (h0 : 0 < env.lim.handshakeTimeout) (i j : Inner) (c : Call) (h : Reached True i)
    (hj : (call env (some i) (.api c)).2 = some j) : Reached (¬ Ends (call env (some i) (.api c)).1) j := by
  cases i with
  | client12 e s =>
    obtain ⟨cfg, s0, cs, h1, h2, h3⟩ := h
    obtain ⟨s1, cs1, g⟩ := reach12 (R := E12.C12.role) c ⟨s0, cs, h1, h2, h3 trivial⟩
    rw [client12_call] at hj ⊢
    cases hj
    exact ⟨cfg, s1, cs1, g⟩
  | server12 e s =>
    obtain ⟨cfg, s0, cs, h1, h2, h3⟩ := h
    obtain ⟨s1, cs1, g⟩ := reach12 (R := E12.S12.role) c ⟨s0, cs, h1, h2, h3 trivial⟩
    rw [server12_call] at hj ⊢
    cases hj
    exact ⟨cfg, s1, cs1, g⟩
  | client13 e s =>
    obtain ⟨cfg, s0, cs, h1, h2, h3⟩ := h
    obtain ⟨s1, cs1, g⟩ := reach13 (R := E13.C13.role) c ⟨s0, cs, h1, h2, h3 trivial⟩
    rw [client13_call] at hj ⊢
    cases hj
    exact ⟨cfg, s1, cs1, g⟩
  | server13 e s =>
    have hold := h
    obtain ⟨cfg, s0, cs, h1, h2, h3⟩ := h
    obtain ⟨s1, cs1, g⟩ := reach13 (R := E13.S13.role) c ⟨s0, cs, h1, h2, h3 trivial⟩
    cases c with
    | packet p =>
      have hcall : call env (some (.server13 e s)) (.api (.packet p)) =
        (.res (handlePacket env p (.server13 e s)).1, (handlePacket env p (.server13 e s)).2) := rfl
      rw [hcall] at hj ⊢
      unfold handlePacket at hj ⊢
      dsimp only at hj ⊢
      split at hj
      · rename_i hq
        rw [if_pos hq]
        obtain ⟨b, k, _, _, _, f4, f5⟩ := fallback_life env (E13.handlePacketM E13.S13.role e p s).2 h0
        rw [f4] at hj
        cases hj
        exact ⟨env.lim12, _, _, .server _, rfl, f5⟩
      · rename_i hq
        rw [if_neg hq]
        cases hj
        exact ⟨cfg, s1, cs1, g⟩
    | _ =>
      simp only [call, callInner] at hj ⊢
      split at hj
      · rename_i hq
        rw [if_pos hq]
        cases hj
        exact ⟨cfg, s0, cs, h1, h2, fun _ => h3 trivial⟩
      · rename_i hq
        rw [if_neg hq]
        cases hj
        exact ⟨cfg, s1, cs1, g⟩
  | clientPending q w =>
    cases c with
    | packet p =>
      cases hv : Auto.serverHelloVersion p with
      | unknown => rw [stray_datagram env q w p hv] at hj; cases hj; trivial
      | panic => simp [call, callInner, handlePacket, resolve, hv] at hj; subst hj; trivial
      | dtls12 =>
        obtain ⟨t, ht, h1⟩ := answer_12 env q w p hv h0
        obtain ⟨s1, cs1, g⟩ := reach12_two (R := E12.C12.role) (cfg := env.lim12) (.packet p)
          (.hybrid w.random w.fragment q.lastNow) ht
        rw [h1] at hj ⊢
        cases hj
        exact ⟨_, s1, cs1, g⟩
      | dtls13 =>
        obtain ⟨t, ht, h1⟩ := answer_13 env q w p hv h0
        obtain ⟨s1, cs1, g⟩ := reach13_two (R := E13.C13.role) (cfg := env.lim) (.packet p)
          (.hybrid w.random w.transcript w.kx q.lastNow) ht
        rw [h1] at hj ⊢
        cases hj
        exact ⟨_, s1, cs1, g⟩
    | _ => simp [call, callInner] at hj; subst hj; trivial

/-- Whatever is called, the session behind the value is in a state reached by a life of its own from
the start of a connection. What is proved of all such lives therefore holds of it. -/
theorem lives_reached (env : Env) (h0 : 0 < env.lim.handshakeTimeout) (i j : Inner) (cs : List Call) (h : Reached True i)
    (hj : (run env (some i) (cs.map .api)).2 = some j) : Reached False j := by
  have weaken : ∀ (live : Prop) (j : Inner), Reached live j → Reached False j := by
    intro live j h
    cases j with
    | clientPending => trivial
    | _ => obtain ⟨cfg, s0, cs, h1, h2, _⟩ := h; exact ⟨cfg, s0, cs, h1, h2, False.elim⟩
  have strengthen : ∀ (live : Prop) (j : Inner), live → Reached live j → Reached True j := by
    intro live j hl h
    cases j with
    | clientPending => trivial
    | _ => obtain ⟨cfg, s0, cs, h1, h2, h3⟩ := h; exact ⟨cfg, s0, cs, h1, h2, fun _ => h3 hl⟩
  induction cs generalizing i with
  | nil => cases hj; exact weaken _ _ h
  | cons c cs ih =>
    rw [List.map_cons, run_cons] at hj
    split at hj
    · exact weaken _ _ (api_reached env h0 i j c h hj)
    · rename_i hc
      dsimp only at hj
      cases hk : (call env (some i) (.api c)).2 with
      | none => exact absurd hk (api_keeps env h0 _ (by simp) c)
      | some k =>
        rw [hk] at hj
        exact ih k (strengthen _ _ hc (api_reached env h0 i k c h hk)) hj

/-- New values are such, in either role. -/
theorem fresh_reached (env : Env) (now : Nat) (b : Bool) :
    (∀ i psk, Props.Dtls.fresh12 env psk now b = some i → Reached True i) ∧
    (∀ i, Props.Dtls.fresh13 env now b = some i → Reached True i) ∧
    (∀ i, newAuto env now = some i → Reached True i) := by
  refine ⟨fun i psk h => ?_, fun i h => ?_, fun i h => ?_⟩
  · cases b <;> cases h
    · exact ⟨env.lim12, _, [], .server now, rfl, fun _ r hr => by cases hr⟩
    · exact ⟨env.lim12, _, [], .client now, rfl, fun _ r hr => by cases hr⟩
  · cases b <;> cases h
    · exact ⟨env.lim, _, [], .server now false, rfl, fun _ r hr => by cases hr⟩
    · exact ⟨env.lim, _, [], .client now, rfl, fun _ r hr => by cases hr⟩
  · unfold newAuto at h
    split at h
    · cases h; exact ⟨env.lim12, _, [], .server now, rfl, fun _ r hr => by cases hr⟩
    · cases h; exact ⟨env.lim, _, [], .server now true, rfl, fun _ r hr => by cases hr⟩

end Verif.Props.Sense

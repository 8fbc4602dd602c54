import Verif.Props.AgreeBase12
/-!
# What a DTLS 1.2 server's parameters have to do with its transcript (C60)
-/
namespace Verif.Props.Agree12.Server
open Verif Wire Window Timer Aead M E12

export Verif.Props.Shake12.Server (rank)

/-- The transcript as messages, and what they say. -/
structure View (env : PEnv) (st : SSt) (s : Ses SSt) (ms : List TMsg) : Prop where
  flat : s.eng.transcript = flat ms
  sid : s.sessionId = none
  start : st = .awaitClientHello → s.srtp = none ∧ ∀ m ∈ ms, m.t ≠ 2
  suite : 1 ≤ rank st → ∃ cs, s.eng.suite = some cs ∧ cs ∈ env.allowed
  params : 1 ≤ rank st → Params env s ms

structure Stage (env : PEnv) (st : SSt) (s : Ses SSt) : Prop where
  view : ∃ ms, View env st s ms
  took : 11 ≤ rank st → ∃ v, Took (Params env) env true s v
  said : st = .awaitApplicationData → ∃ v, Said (Params env) env false s v

structure Done (env : PEnv) (s : Ses SSt) : Prop where
  said : ∃ v, Said (Params env) env false s v
  took : ∃ v, Took (Params env) env true s v

variable {env : PEnv}

theorem params_kept (s s' : Ses SSt) (ms : List TMsg) (h : Params env s ms) (hk : Kept s s') : Params env s' ms :=
  h.kept hk

theorem Params.more {s : Ses SSt} {ms ns : List TMsg} (h : Params env s ms) (h1 : ∀ m ∈ ns, m.t ≠ 1)
    (h2 : ∀ m ∈ ns, m.t = 2 → ∃ r cs, s.random = some r ∧ s.eng.suite = some cs ∧ cs ∈ env.allowed ∧
      m.body = env.serverHelloBody r [] cs s.srtp) : Params env s (ms ++ ns) := by
  obtain ⟨body, x, g1, g2, g3⟩ := h.heard
  refine ⟨⟨body, x, ?_, g2, g3⟩, fun m hm => ?_, h.srtp⟩
  · rw [lastOf_append, lastOf_none h1]
    exact g1
  · rcases List.mem_append.mp hm with hm | hm
    · exact h.wrote m hm
    · exact h2 m hm

/-- A step that adds no hello. -/
theorem View.go {st new : SSt} {s s' : Ses SSt} {ms : List TMsg} (h : View env st s ms) (hk : Kept s s')
    (ha : Adds NotHello s.eng s'.eng) (h1 : new = .awaitClientHello → st = .awaitClientHello)
    (h2 : 1 ≤ rank new → 1 ≤ rank st) : ∃ ms, View env new s' ms := by
  obtain ⟨ns, hn, ht⟩ := ha
  refine ⟨ms ++ ns, by rw [ht, h.flat, flat_append], hk.sessionId.trans h.sid, fun g => ?_, fun g => ?_, fun g => ?_⟩
  · obtain ⟨g1, g2⟩ := h.start (h1 g)
    refine ⟨hk.srtp.trans g1, fun m hm => ?_⟩
    rcases List.mem_append.mp hm with hm | hm
    · exact g2 m hm
    · exact (hn m hm).2
  · obtain ⟨cs, g1, g2⟩ := h.suite (h2 g)
    exact ⟨cs, hk.suite.trans g1, g2⟩
  · exact ((h.params (h2 g)).kept hk).more (fun m hm => (hn m hm).1) fun m hm g => absurd g (hn m hm).2

theorem View.still {st : SSt} {s s' : Ses SSt} (h : ∃ ms, View env st s ms) (hl : Still s s') :
    ∃ ms, View env st s' ms := by
  obtain ⟨ms, h⟩ := h
  exact h.go hl.kept (.same hl.same) id id

/-! ## The states -/

theorem sendHelloVerify_adds (r : Bytes) (s : Ses SSt) :
    ∃ e, (S12.sendHelloVerify env r s).2 = { s with eng := e } ∧
      (e.transcript = [] ∨ Adds NotHello s.eng e) := by
  apply of_wp (m := S12.sendHelloVerify env r) (R := fun s' : Ses SSt => ∃ e, s' = { s with eng := e } ∧
      (e.transcript = [] ∨ Adds NotHello s.eng e))
  unfold S12.sendHelloVerify
  simp only [bind_eq, pure_eq, wp_bind]
  refine wp_orFatal_of (fun c _ => ?_) ⟨s.eng, rfl, .inr (.refl _)⟩
  rw [wp_onEng', wp_onEng]
  refine wp_mono (to_wp (R := fun e : Eng => Adds NotHello s.eng e) ?_) ?_ ?_
  · obtain ⟨ns, g1, g2⟩ := createHandshake_adds (T := NotHello) env.toEnv mtHelloVerifyRequest
      (by decide) (env.helloVerifyBody c) (flightBegin env.toEnv s.eng)
    exact ⟨ns, g1, g2⟩
  · intro _ e _
    simp only [wp_onEng', wp_pure]
    exact ⟨_, rfl, .inl rfl⟩
  · intro _ e he
    exact ⟨_, rfl, .inr he⟩

theorem awaitClientHello_stage (s : Ses SSt) (h : Stage env .awaitClientHello s) :
    wp (S12.awaitClientHello env) s (fun new s' => s'.st = s.st ∧ Stage env new s')
      (fun _ s' => s'.st = s.st ∧ Stage env .awaitClientHello s') := by
  obtain ⟨ms, h⟩ := h.view
  obtain ⟨h0, hno⟩ := h.start rfl
  -- whatever happens, up to the ClientHello
  have bad : ∀ (s' : Ses SSt) (ns : List TMsg), s'.st = s.st → s'.sessionId = s.sessionId → s'.srtp = none →
      s'.eng.transcript = flat ns → (∀ m ∈ ns, m.t ≠ 2) →
      s'.st = s.st ∧ Stage env .awaitClientHello s' := by
    intro s' ns g1 g2 g3 g4 g5
    exact ⟨g1, ⟨ns, g4, g2.trans h.sid, fun _ => ⟨g3, g5⟩, nofun, nofun⟩, nofun, nofun⟩
  unfold S12.awaitClientHello
  simp only [bind_eq, pure_eq, wp_bind, wp_onEng]
  have hmsg := to_wp (m := nextHandshake env.toEnv mtClientHello) (s := s.eng) (R := fun e : Eng =>
    e.transcript = s.eng.transcript ∨ ∃ seq body, e.transcript = s.eng.transcript ++ flat [⟨1, seq, body⟩])
    (nextHandshake_msg env.toEnv mtClientHello s.eng)
  have hno' : ∀ seq body, ∀ m ∈ ms ++ [(⟨1, seq, body⟩ : TMsg)], m.t ≠ 2 := by
    intro seq body m hm
    rcases List.mem_append.mp hm with hm | hm
    · exact hno m hm
    · obtain rfl := List.mem_singleton.mp hm
      show (1 : UInt8) ≠ 2
      decide
  refine wp_mono (wp_and (nextHandshake_ok env.toEnv mtClientHello s.eng (by decide)) hmsg) ?_ ?_
  · rintro m e ⟨⟨hg, ⟨rfl, rfl⟩ | ⟨b, seq, body, rfl, hlog, hp, htr⟩⟩, _⟩
    · exact ⟨rfl, ⟨ms, h⟩, nofun, nofun⟩
    obtain ⟨ch, rfl, hx⟩ := parseBody_clientHello hp
    rw [transcriptOf_bytes, h.flat, ← flat_append] at htr
    have bad0 : ∀ s' : Ses SSt, s'.st = s.st → s'.sessionId = s.sessionId → s'.srtp = none →
        s'.eng.transcript = e.transcript → s'.st = s.st ∧ Stage env .awaitClientHello s' := fun s' g1 g2 g3 g4 =>
      bad s' _ g1 g2 g3 (g4.trans htr) (hno' seq body)
    dsimp only
    simp only [wp_bind]
    refine wp_check_of (fun _ => ?_) (bad0 _ rfl rfl h0 rfl)
    refine wp_check_of (fun _ => ?_) (bad0 _ rfl rfl h0 rfl)
    split
    · unfold S12.acceptClientHello
      simp only [bind_eq, pure_eq, wp_bind]
      refine wp_orFatal_of (fun cs hcs => ?_) (bad0 _ rfl rfl h0 rfl)
      rw [wp_onEng]
      refine wp_mono (setCipherSuite_wp ..) ?_ ?_
      · rintro _ e2 ⟨_, _, rfl⟩
        simp only [wp_modify]
        refine wp_mono (Shake12.Server.clientExtensions_spec _ _ _) ?_ ?_
        · rintro x t ⟨rfl, _⟩
          refine wp_check_of (fun _ => ?_) (bad0 _ rfl rfl h0 rfl)
          rw [wp_pure]
          have hall : cs ∈ env.allowed := by
            have := List.find?_some hcs
            simp only [Bool.and_eq_true] at this
            simpa using this.1
          refine ⟨rfl, ⟨_, htr, h.sid, nofun, fun _ => ⟨cs, rfl, hall⟩, fun _ => ⟨⟨body, ch, ?_, hx, rfl⟩, ?_, ?_⟩⟩,
            (fun g => absurd g (by decide)), nofun⟩
          · rw [lastOf_append]
            rfl
          · exact fun m hm g => absurd g (hno' seq body m hm)
          · intro p hpp
            have hpp : (match x.srtp with | some ps => S12.selectSrtp ps | none => s.srtp) = some p := hpp
            split at hpp
            · exact List.mem_of_find?_eq_some hpp
            · rw [h0] at hpp; cases hpp
        · rintro _ t rfl
          exact bad0 _ rfl rfl h0 rfl
      · rintro _ e2 rfl
        exact bad0 _ rfl rfl h0 rfl
    · have hr : Rets (· = SSt.awaitClientHello) (S12.sendHelloVerify env ch.random) := by
        unfold S12.sendHelloVerify; simp only [bind_eq, pure_eq]; goes
      have hR : (S12.sendHelloVerify env ch.random { s with eng := e }).2.st = s.st ∧
          Stage env .awaitClientHello (S12.sendHelloVerify env ch.random { s with eng := e }).2 := by
        obtain ⟨e', he, g | ⟨ns, hn, g⟩⟩ := sendHelloVerify_adds (env := env) ch.random { s with eng := e }
        · rw [he]
          exact bad _ [] rfl rfl h0 g nofun
        · rw [he]
          refine bad _ (ms ++ [⟨1, seq, body⟩] ++ ns) rfl rfl h0 ?_ fun m hm => ?_
          · rw [flat_append, ← htr]
            exact g
          · rcases List.mem_append.mp hm with hm | hm
            · exact hno' seq body m hm
            · exact (hn m hm).2
      refine wp_mono (wp_and (to_wp (m := S12.sendHelloVerify env ch.random) (s := { s with eng := e })
        (R := fun s' => s'.st = s.st ∧ Stage env .awaitClientHello s') hR) (Rets.wp hr _)) ?_ ?_
      · rintro _ s' ⟨g, rfl⟩; exact g
      · rintro _ s' ⟨g, _⟩; exact g
  · rintro _ e ⟨_, g | ⟨seq, body, g⟩⟩
    · exact ⟨trivial, (bad { s with eng := e } ms rfl rfl h0 (g.trans h.flat) hno).2⟩
    · refine ⟨trivial, (bad { s with eng := e } (ms ++ [⟨1, seq, body⟩]) rfl rfl h0 ?_ (hno' seq body)).2⟩
      rw [flat_append, ← h.flat]
      exact g

theorem sendServerHello_stage (s : Ses SSt) (h : Stage env .sendServerHello s) :
    wp (S12.sendServerHello env) s (fun new s' => s'.st = s.st ∧ Stage env new s')
      (fun _ s' => s'.st = s.st ∧ Stage env .sendServerHello s') := by
  obtain ⟨ms, h⟩ := h.view
  have key : ∀ st (s' : Ses SSt), 1 ≤ rank st → st ≠ .awaitClientHello → rank st ≤ 3 → Kept s s' → s'.st = s.st →
      (∃ ns, s'.eng.transcript = s.eng.transcript ++ flat ns ∧ ∀ m ∈ ns, m.t = 2 ∧ ∃ r cs, s.random = some r ∧
        s.eng.suite = some cs ∧ m.body = env.serverHelloBody r [] cs s.srtp) →
      s'.st = s.st ∧ Stage env st s' := by
    rintro st s' h1 h2 h3 hk hst ⟨ns, ht, hn⟩
    refine ⟨hst, ⟨ms ++ ns, by rw [ht, h.flat, flat_append], hk.sessionId.trans h.sid, fun g => absurd g h2,
      fun _ => ?_, fun _ => ?_⟩, fun g => absurd g (by omega), fun g => by rw [g] at h3; exact absurd h3 (by decide)⟩
    · obtain ⟨cs, g1, g2⟩ := h.suite (by decide)
      exact ⟨cs, hk.suite.trans g1, g2⟩
    · refine ((h.params (by decide)).more (ns := ns) (fun m hm g => ?_) fun m hm _ => ?_).kept hk
      · rw [(hn m hm).1] at g
        exact absurd g (by decide)
      · obtain ⟨_, r, cs, g1, g2, g3⟩ := hn m hm
        obtain ⟨cs', g4, g5⟩ := h.suite (by decide)
        rw [g2] at g4; cases g4
        exact ⟨r, cs, g1, g2, g5, g3⟩
  have hw : wp (S12.sendServerHello env) s
      (fun _ s' => ∃ ns, s'.eng.transcript = s.eng.transcript ++ flat ns ∧ ∀ m ∈ ns, m.t = 2 ∧ ∃ r cs,
        s.random = some r ∧ s.eng.suite = some cs ∧ m.body = env.serverHelloBody r [] cs s.srtp)
      (fun _ s' => ∃ ns, s'.eng.transcript = s.eng.transcript ++ flat ns ∧ ∀ m ∈ ns, m.t = 2 ∧ ∃ r cs,
        s.random = some r ∧ s.eng.suite = some cs ∧ m.body = env.serverHelloBody r [] cs s.srtp) := by
    unfold S12.sendServerHello
    simp only [bind_eq, pure_eq, wp_bind, wp_get, wp_onEng']
    have none' : ∃ ns : List TMsg, s.eng.transcript = s.eng.transcript ++ flat ns ∧ ∀ m ∈ ns, m.t = 2 ∧ ∃ r cs,
        s.random = some r ∧ s.eng.suite = some cs ∧ m.body = env.serverHelloBody r [] cs s.srtp :=
      ⟨[], (List.append_nil _).symm, nofun⟩
    refine wp_orPanic_of (fun r hr => ?_) none'
    refine wp_orFatal_of (fun cs hcs => ?_) none'
    rw [wp_onEng]
    have hcs : s.eng.suite = some cs := hcs
    have hone : ∀ e : Eng, e.transcript = s.eng.transcript ++
        flat [⟨2, s.eng.nextSeq, env.serverHelloBody r (s.sessionId.getD []) cs s.srtp⟩] →
        ∃ ns : List TMsg, e.transcript = s.eng.transcript ++ flat ns ∧ ∀ m ∈ ns, m.t = 2 ∧ ∃ r cs,
        s.random = some r ∧ s.eng.suite = some cs ∧ m.body = env.serverHelloBody r [] cs s.srtp := by
      intro e he
      refine ⟨_, he, fun m hm => ?_⟩
      obtain rfl := List.mem_singleton.mp hm
      refine ⟨rfl, r, cs, hr, hcs, ?_⟩
      rw [h.sid]
      rfl
    refine wp_mono (to_wp (R := fun e : Eng => e.transcript = s.eng.transcript ++
        flat [⟨2, s.eng.nextSeq, env.serverHelloBody r (s.sessionId.getD []) cs s.srtp⟩])
      (createHandshake_msg env.toEnv mtServerHello _ (flightBegin env.toEnv s.eng))) ?_ ?_
    · intro _ e he
      exact hone e he
    · intro _ e he
      exact hone e he
  refine wp_mono (wp_and (wp_and hw (Rets.wp (S12.step_next (env := env) .sendServerHello) s))
    (to_wp (m := S12.sendServerHello env) (s := s) (R := fun s' => Kept s s' ∧ s'.st = s.st ∧ s'.random = s.random)
      (server_kept (env := env) .sendServerHello nofun s))) ?_ ?_
  · rintro new s' ⟨⟨g1, hn⟩, g2, g3, _⟩
    have : 1 ≤ rank new ∧ new ≠ .awaitClientHello ∧ rank new ≤ 3 := by
      revert hn; cases new <;> decide
    exact key new s' this.1 this.2.1 this.2.2 g2 g3 g1
  · rintro _ s' ⟨⟨g1, _⟩, g2, g3, _⟩
    exact key .sendServerHello s' (by decide) nofun (by decide) g2 g3 g1

theorem awaitFinished_stage (s : Ses SSt) (h : Stage env .awaitFinished s) :
    wp (S12.awaitFinished env) s (fun new s' => s'.st = s.st ∧ Stage env new s')
      (fun _ s' => s'.st = s.st ∧ Stage env .awaitFinished s') := by
  obtain ⟨ms, h⟩ := h.view
  have hw : wp (S12.awaitFinished env) s (fun new s' => new = .awaitFinished ∨ ∃ m v cs seq body,
      s'.eng.master = some m ∧ s'.eng.suite = some cs ∧ env.parseFinished cs body = some ([], v) ∧
      .consumed seq 20 body ∈ s'.eng.log ∧ env.verifyData m true s.eng.transcript = some v ∧
      flat (ms ++ [⟨20, seq, body⟩]) <+: s'.eng.transcript) (fun _ _ => True) := by
    unfold S12.awaitFinished
    simp only [bind_eq, pure_eq, wp_bind, wp_onEng]
    refine wp_of (fun v e he => ?_) (fun _ _ _ => trivial)
    obtain ⟨m, cs, hm, hcs, hv, rfl⟩ := generateVerifyData_ok he
    refine wp_mono (nextHandshake_ok env.toEnv mtFinished s.eng (by decide)) ?_ (fun _ _ _ => trivial)
    rintro mm e ⟨hg, ⟨rfl, rfl⟩ | ⟨b, seq, body, rfl, hlog, hp, htr⟩⟩
    · exact .inl rfl
    obtain ⟨cs', x, hsu, rfl, hx⟩ := parseBody_finished hp
    rw [hcs] at hsu; cases hsu
    dsimp only
    simp only [wp_bind]
    refine wp_check_of (fun hc => ?_) trivial
    have hc : x = v := by simpa using hc
    subst hc
    rw [wp_get]
    split
    · trivial
    rw [wp_bind]
    refine wp_check_of (fun _ => ?_) trivial
    rw [wp_pure]
    refine .inr ⟨m, x, cs, seq, body, hg.master.trans hm, hg.suite.trans hcs, hx, ?_, hv, ?_⟩
    · show _ ∈ e.log
      rw [hlog]; exact List.mem_cons_self
    · show _ <+: e.transcript
      rw [flat_append, ← h.flat, htr, transcriptOf_bytes]
      exact List.prefix_refl _
  refine wp_mono (wp_and (wp_and hw (Rets.wp (S12.step_next (env := env) .awaitFinished) s)) (wp_and
    (to_wp (m := S12.awaitFinished env) (s := s) (R := fun s' => Kept s s' ∧ s'.st = s.st ∧ s'.random = s.random)
      (server_kept (env := env) .awaitFinished nofun s))
    (AFr.wp (S12.step_afr (env := env) .awaitFinished nofun nofun) s))) ?_ ?_
  · rintro new s' ⟨⟨k, hn⟩, ⟨g1, g2, _⟩, g4⟩
    simp only [S12.next, List.mem_cons, List.not_mem_nil, or_false] at hn
    rcases hn with rfl | rfl
    · exact ⟨g2, h.go g1 g4 nofun (fun g => g), (fun g => absurd g (by decide)), nofun⟩
    · refine ⟨g2, h.go g1 g4 nofun (fun _ => by decide), fun _ => ?_, nofun⟩
      rcases k with k | ⟨m, v, cs, seq, body, k1, k2, k3, k4, k5, k6⟩
      · cases k
      · exact ⟨v, ms, m, cs, seq, body, (h.params (by decide)).kept g1, k1, k2, k4, k3, by rw [← h.flat]; exact k5, k6⟩
  · rintro _ s' ⟨_, ⟨g1, g2, _⟩, g4⟩
    exact ⟨g2, h.go g1 g4 nofun (fun g => g), (fun g => absurd g (by decide)), nofun⟩

theorem took_go {s s' : Ses SSt} (h : ∃ v, Took (Params env) env true s v) (hk : Kept s s') (hl : Later s s') :
    ∃ v, Took (Params env) env true s' v := by
  obtain ⟨v, h⟩ := h
  obtain ⟨t, ht⟩ := hl.transcript
  exact ⟨v, h.kept params_kept hk hl.master ⟨t, ht.symm⟩ hl.log⟩

theorem sendFinished_stage (s : Ses SSt) (h : Stage env .sendFinished s) :
    wp (S12.sendFinished env) s (fun new s' => s'.st = s.st ∧ Stage env new s')
      (fun _ s' => s'.st = s.st ∧ Stage env .sendFinished s') := by
  have htook := h.took (by decide)
  obtain ⟨ms, h⟩ := h.view
  have hw : wp (S12.sendFinished env) s (fun _ s' => ∃ m v seq,
      s'.eng.master = some m ∧ env.verifyData m false s.eng.transcript = some v ∧
      s.eng.transcript ++ flat [⟨20, seq, v⟩] <+: s'.eng.transcript) (fun _ _ => True) := by
    unfold S12.sendFinished
    simp only [bind_eq, wp_bind, wp_onEng]
    refine wp_of (fun v e he => ?_) (fun _ _ _ => trivial)
    obtain ⟨m, cs, hm, hcs, hv, rfl⟩ := generateVerifyData_ok he
    refine wp_mono (to_wp (R := fun e : Eng => e.master = s.eng.master ∧
      e.transcript = s.eng.transcript ++ flat [⟨20, s.eng.nextSeq, v⟩])
      ⟨(createHandshake_grow env.toEnv mtFinished v s.eng).master, createHandshake_msg env.toEnv mtFinished v s.eng⟩) ?_
      (fun _ _ _ => trivial)
    rintro _ e ⟨g1, g2⟩
    refine wp_mono (SFr.wp (announce_later (env := env) SSt.awaitApplicationData (·.peerRandom) (·.random)) _) ?_
      (fun _ _ _ => trivial)
    rintro new s' ⟨hl, _⟩
    obtain ⟨t, ht⟩ := hl.transcript
    have ht : s'.eng.transcript = e.transcript ++ t := ht
    exact ⟨m, v, s.eng.nextSeq, hl.master.trans (g1.trans hm), hv, t, by rw [ht, g2]⟩
  refine wp_mono (wp_and (wp_and hw (wp_and (SFr.wp (S12.step_later (env := env) .sendFinished nofun nofun nofun) s)
    (Rets.wp (S12.step_next (env := env) .sendFinished) s))) (wp_and
    (to_wp (m := S12.sendFinished env) (s := s) (R := fun s' => Kept s s' ∧ s'.st = s.st ∧ s'.random = s.random)
      (server_kept (env := env) .sendFinished nofun s))
    (AFr.wp (S12.step_afr (env := env) .sendFinished nofun nofun) s))) ?_ ?_
  · rintro new s' ⟨⟨⟨m, v, seq, k1, k2, k3⟩, ⟨hl, _⟩, hn⟩, ⟨g1, g2, _⟩, g4⟩
    have hn : new = .awaitApplicationData := by
      revert hn; cases new <;> decide
    subst hn
    refine ⟨g2, h.go g1 g4 nofun (fun _ => by decide), fun _ => took_go htook g1 hl,
      fun _ => ⟨v, ms, m, seq, (h.params (by decide)).kept g1, k1, by rw [← h.flat]; exact k2, ?_⟩⟩
    rw [flat_append, ← h.flat]
    exact k3
  · rintro _ s' ⟨⟨_, ⟨hl, _⟩, _⟩, ⟨g1, g2, _⟩, g4⟩
    exact ⟨g2, h.go g1 g4 nofun (fun g => g), fun _ => took_go htook g1 hl, nofun⟩

theorem next_le (x new : SSt) (hn : new ∈ S12.next x) (h1 : x ≠ .awaitClientHello) (h2 : x ≠ .sendServerHello)
    (h3 : x ≠ .awaitFinished) (h4 : x ≠ .sendFinished) :
    (new = .awaitClientHello → x = .awaitClientHello) ∧ (1 ≤ rank new → 1 ≤ rank x) ∧
    (11 ≤ rank new → 11 ≤ rank x) ∧ (new = .awaitApplicationData → x = .awaitApplicationData) := by
  revert hn h1 h2 h3 h4
  cases x <;> cases new <;> decide

theorem saga : Saga S12.role env (Stage env) (Done env) where
  later st s s' hl h := by
    refine ⟨View.still h.view hl, fun g => ?_, fun g => ?_⟩
    · obtain ⟨v, h⟩ := h.took g
      exact ⟨v, h.still params_kept hl⟩
    · obtain ⟨v, h⟩ := h.said g
      exact ⟨v, h.still params_kept hl⟩
  closed st s h := by
    obtain ⟨ms, h⟩ := h.view
    exact ⟨⟨ms, h.flat, h.sid, nofun, (fun g => absurd g (by decide)), (fun g => absurd g (by decide))⟩,
      (fun g => absurd g (by decide)), nofun⟩
  app s h := ⟨h.said rfl, h.took (by decide)⟩
  done s s' hl h := by
    obtain ⟨v, h1⟩ := h.said
    obtain ⟨w, h2⟩ := h.took
    exact ⟨⟨v, h1.still params_kept hl⟩, w, h2.still params_kept hl⟩
  step st s h := by
    show wp (S12.step env st) s _ _
    by_cases h1 : st = .awaitClientHello
    · subst h1; exact awaitClientHello_stage s h
    by_cases h2 : st = .sendServerHello
    · subst h2; exact sendServerHello_stage s h
    by_cases h3 : st = .awaitFinished
    · subst h3; exact awaitFinished_stage s h
    by_cases h4 : st = .sendFinished
    · subst h4; exact sendFinished_stage s h
    obtain ⟨ms, hv⟩ := h.view
    have hkept := server_kept (env := env) st h1 s
    have hadds := S12.step_afr (env := env) st h1 h2 s
    have hlat : 11 ≤ rank st → Later s (S12.step env st s).2 := fun g =>
      (S12.step_later (env := env) st h1 (by rintro rfl; exact absurd g (by decide))
        (by rintro rfl; exact absurd g (by decide)) s).1
    have hdone : ∀ s' : Ses SSt, Kept s s' → (11 ≤ rank st → Later s s') →
        (11 ≤ rank st → ∃ v, Took (Params env) env true s' v) ∧
        (st = .awaitApplicationData → ∃ v, Said (Params env) env false s' v) := by
      intro s' g1 g3
      refine ⟨fun g => took_go (h.took g) g1 (g3 g), fun g => ?_⟩
      obtain ⟨v, k⟩ := h.said g
      have hl := g3 (by rw [g]; decide)
      obtain ⟨t, ht⟩ := hl.transcript
      exact ⟨v, k.kept params_kept g1 hl.master ⟨t, ht.symm⟩⟩
    refine wp_mono (wp_and (to_wp (m := S12.step env st) (s := s) (R := fun s' => (Kept s s' ∧ s'.st = s.st) ∧
      Adds NotHello s.eng s'.eng ∧ (11 ≤ rank st → Later s s'))
      ⟨⟨hkept.1, hkept.2.1⟩, hadds, hlat⟩) (Rets.wp (S12.step_next (env := env) st) s)) ?_ ?_
    · rintro new s' ⟨⟨⟨g1, g2⟩, g3, g4⟩, hn⟩
      obtain ⟨n1, n2, n3, n4⟩ := next_le _ _ hn h1 h2 h3 h4
      obtain ⟨d1, d2⟩ := hdone s' g1 g4
      exact ⟨g2, hv.go g1 g3 n1 n2, fun g => d1 (n3 g), fun g => d2 (n4 g)⟩
    · rintro _ s' ⟨⟨⟨g1, g2⟩, g3, g4⟩, _⟩
      obtain ⟨d1, d2⟩ := hdone s' g1 g4
      exact ⟨g2, hv.go g1 g3 id id, d1, d2⟩

end Verif.Props.Agree12.Server

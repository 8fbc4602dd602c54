import Verif.Props.AgreeBase12
/-!
# What a DTLS 1.2 client's parameters have to do with its transcript (C60)
-/
namespace Verif.Props.Agree12.Client
open Verif Wire Window Timer Aead M E12

export Verif.Props.Shake12.Client (helloed)

/-- The Finished has been sent. -/
def finished : CSt → Bool
  | .awaitChangeCipherSpec | .awaitNewSessionTicket | .awaitFinished | .awaitApplicationData => true
  | _ => false

/-- The transcript as messages, and what they say. -/
structure View (env : PEnv) (st : CSt) (s : Ses CSt) (ms : List TMsg) : Prop where
  flat : s.eng.transcript = flat ms
  named : ∀ m ∈ ms, m.t = 1 → ∃ r, s.random = some r ∧ (r.length = 32 → Names env r m.body)
  offered : ∀ p, s.srtp = some p → ∃ m ∈ ms, m.t = 2 ∧ SaysSrtp env m.body p
  early : st = .sendClientHello ∨ st = .awaitHelloVerifyRequest → s.srtp = none
  hello : helloed st = true → ∃ body h xs, lastOf 2 ms = some body ∧ env.parseServerHello body = some ([], h) ∧
    s.eng.suite = some h.suite ∧ s.peerRandom = some h.random ∧ h.exts = some xs ∧
    (s.srtp = none → ∀ d, (14, d) ∈ xs → env.parseUseSrtp d = some [])

structure Stage (env : PEnv) (st : CSt) (s : Ses CSt) : Prop where
  view : ∃ ms, View env st s ms
  said : finished st = true → ∃ v, Said (Params env) env true s v
  took : st = .awaitApplicationData → ∃ v, Took (Params env) env false s v

structure Done (env : PEnv) (s : Ses CSt) : Prop where
  said : ∃ v, Said (Params env) env true s v
  took : ∃ v, Took (Params env) env false s v

variable {env : PEnv}

theorem View.params {st : CSt} {s : Ses CSt} {ms : List TMsg} (h : View env st s ms) (hh : helloed st = true) :
    Params env s ms := ⟨h.named, h.offered, h.hello hh⟩

theorem params_kept (s s' : Ses CSt) (ms : List TMsg) (h : Params env s ms) (hk : Kept s s') : Params env s' ms :=
  h.kept hk

/-- A step that adds no hello. -/
theorem View.go {st new : CSt} {s s' : Ses CSt} {ms : List TMsg} (h : View env st s ms) (hk : Kept s s')
    (ha : Adds NotHello s.eng s'.eng)
    (h1 : new = .sendClientHello ∨ new = .awaitHelloVerifyRequest →
      st = .sendClientHello ∨ st = .awaitHelloVerifyRequest)
    (h2 : helloed new = true → helloed st = true) : ∃ ms, View env new s' ms := by
  obtain ⟨ns, hn, ht⟩ := ha
  refine ⟨ms ++ ns, by rw [ht, h.flat, flat_append], fun m hm hm1 => ?_, fun p hp => ?_,
    fun g => hk.srtp.trans (h.early (h1 g)), fun g => ?_⟩
  · rcases List.mem_append.mp hm with hm | hm
    · obtain ⟨r, g1, g2⟩ := h.named m hm hm1
      exact ⟨r, hk.random r g1, g2⟩
    · exact absurd hm1 (hn m hm).1
  · obtain ⟨m, g1, g2⟩ := h.offered p (hk.srtp.symm.trans hp)
    exact ⟨m, List.mem_append_left _ g1, g2⟩
  · obtain ⟨body, x, xs, g1, g2, g3, g4, g5, g6⟩ := h.hello (h2 g)
    refine ⟨body, x, xs, ?_, g2, hk.suite.trans g3, hk.peerRandom.trans g4, g5,
      fun g => g6 (hk.srtp.symm.trans g)⟩
    rw [lastOf_append, lastOf_none fun m hm => (hn m hm).2]
    exact g1

theorem View.still {st : CSt} {s s' : Ses CSt} (h : ∃ ms, View env st s ms) (hl : Still s s') :
    ∃ ms, View env st s' ms := by
  obtain ⟨ms, h⟩ := h
  exact h.go hl.kept (.same hl.same) id id

theorem said_go {s s' : Ses CSt} (h : ∃ v, Said (Params env) env true s v) (hk : Kept s s')
    (hm : s'.eng.master = s.eng.master) {T : UInt8 → Prop} (ha : Adds T s.eng s'.eng) :
    ∃ v, Said (Params env) env true s' v := by
  obtain ⟨v, h⟩ := h
  obtain ⟨ns, _, ht⟩ := ha
  exact ⟨v, h.kept params_kept hk hm ⟨flat ns, ht.symm⟩⟩

/-! ## The states -/

theorem sendClientHello_stage (hw : ClientWrites env) (s : Ses CSt) (h : Stage env .sendClientHello s) :
    wp (C12.sendClientHello env) s (fun new s' => s'.st = s.st ∧ Stage env new s')
      (fun _ s' => s'.st = s.st ∧ Stage env .sendClientHello s') := by
  obtain ⟨ms, h⟩ := h.view
  unfold C12.sendClientHello
  simp only [bind_eq, pure_eq, wp_bind, wp_get]
  refine wp_orPanic_of (fun r hr => ?_) ⟨rfl, ⟨ms, h⟩, nofun, nofun⟩
  rw [wp_onEng', wp_onEng]
  have ht := createHandshake_msg env.toEnv mtClientHello
    (env.clientHelloBody r (s.cookie.getD []) (s.sessionId.getD [])) (flightBegin env.toEnv s.eng)
  have key : ∀ st (e : Eng), st = CSt.sendClientHello ∨ st = CSt.awaitHelloVerifyRequest ∨ st = CSt.awaitServerHello →
      e.transcript = s.eng.transcript ++
        flat [⟨1, s.eng.nextSeq, env.clientHelloBody r (s.cookie.getD []) (s.sessionId.getD [])⟩] →
      Stage env st { s with eng := e } := by
    intro st e hst he
    refine ⟨⟨ms ++ [⟨1, s.eng.nextSeq, env.clientHelloBody r (s.cookie.getD []) (s.sessionId.getD [])⟩],
      ?_, ?_, ?_, fun _ => h.early (.inl rfl), ?_⟩, ?_, ?_⟩
    · show e.transcript = _
      rw [he, h.flat, flat_append]
    · intro m hm hm1
      rcases List.mem_append.mp hm with hm | hm
      · exact h.named m hm hm1
      · obtain rfl := List.mem_singleton.mp hm
        exact ⟨r, hr, fun hl => hw r _ _ hl⟩
    · intro p hp
      rw [show s.srtp = none from h.early (.inl rfl)] at hp
      cases hp
    · rcases hst with rfl | rfl | rfl <;> nofun
    · rcases hst with rfl | rfl | rfl <;> nofun
    · rcases hst with rfl | rfl | rfl <;> nofun
  refine wp_mono (to_wp (R := fun e : Eng => e.transcript = s.eng.transcript ++
    flat [⟨1, s.eng.nextSeq, env.clientHelloBody r (s.cookie.getD []) (s.sessionId.getD [])⟩]) ht) ?_ ?_
  · intro _ e he
    rw [wp_pure]
    refine ⟨rfl, key _ e ?_ he⟩
    split
    · exact .inr (.inl rfl)
    · exact .inr (.inr rfl)
  · intro _ e he
    exact ⟨by trivial, key _ e (.inl rfl) he⟩

theorem awaitHelloVerifyRequest_stage (s : Ses CSt) (h : Stage env .awaitHelloVerifyRequest s) :
    wp (C12.awaitHelloVerifyRequest env) s (fun new s' => s'.st = s.st ∧ Stage env new s')
      (fun _ s' => s'.st = s.st ∧ Stage env .awaitHelloVerifyRequest s') := by
  obtain ⟨ms, h⟩ := h.view
  unfold C12.awaitHelloVerifyRequest
  simp only [bind_eq, pure_eq, wp_bind, wp_get]
  split
  · exact ⟨rfl, h.go ⟨fun _ g => g, rfl, rfl, rfl, rfl⟩ (.refl _) nofun nofun, nofun, nofun⟩
  rw [wp_bind, wp_onEng]
  have hok : ∀ st (e : Eng), st = CSt.awaitHelloVerifyRequest ∨ st = CSt.sendClientHello → Adds NotHello s.eng e →
      e.suite = s.eng.suite → Stage env st { s with eng := e } := by
    intro st e hst ha hs
    refine ⟨?_, ?_, ?_⟩
    · have := h.go (new := st) (s' := { s with eng := e }) ⟨fun _ g => g, rfl, rfl, hs, rfl⟩ ha
        (fun _ => .inr rfl) (by rcases hst with rfl | rfl <;> nofun)
      exact this
    · rcases hst with rfl | rfl <;> nofun
    · rcases hst with rfl | rfl <;> nofun
  have hw := to_wp (m := nextHandshake env.toEnv mtHelloVerifyRequest) (s := s.eng)
    (R := fun e : Eng => Adds NotHello s.eng e ∧ e.suite = s.eng.suite)
    ⟨nextHandshake_adds env.toEnv mtHelloVerifyRequest (by decide) s.eng,
      (nextHandshake_grow env.toEnv mtHelloVerifyRequest s.eng).suite⟩
  refine wp_mono hw ?_ ?_
  · rintro m e ⟨ha, hs⟩
    split
    · exact ⟨rfl, hok _ e (.inl rfl) ha hs⟩
    · rw [wp_bind]
      refine wp_check_of (fun _ => ?_) ⟨rfl, hok _ e (.inl rfl) ha hs⟩
      simp only [wp_bind, wp_modify, wp_onEng', wp_pure]
      refine ⟨trivial, ⟨[], rfl, nofun, fun p hp => ?_, fun _ => h.early (.inr rfl), nofun⟩, nofun, nofun⟩
      have hp : s.srtp = some p := hp
      rw [h.early (.inr rfl)] at hp
      cases hp
    · exact ⟨rfl, hok _ e (.inl rfl) ha hs⟩
  · rintro _ e ⟨ha, hs⟩
    exact ⟨by trivial, hok _ e (.inl rfl) ha hs⟩

/-- The extension loop: the SRTP profile comes from an extension; if there is none in the end there was none
and no extension offered any. -/
theorem serverExtensions_spec (l : List (Nat × Bytes)) (b : Bool) (s : Ses CSt) :
    wp (C12.serverExtensions env l b) s
      (fun _ t => ∃ p, t = { s with srtp := p } ∧
        (∀ q, p = some q → s.srtp = some q ∨ ∃ d ps, (14, d) ∈ l ∧ env.parseUseSrtp d = some (q :: ps)) ∧
        (p = none → ∀ d, (14, d) ∈ l → env.parseUseSrtp d = some []))
      (fun _ t => ∃ p, t = { s with srtp := p } ∧
        (∀ q, p = some q → s.srtp = some q ∨ ∃ d ps, (14, d) ∈ l ∧ env.parseUseSrtp d = some (q :: ps))) := by
  induction l generalizing b s with
  | nil => exact ⟨s.srtp, rfl, fun q h => .inl h, nofun⟩
  | cons x rest ih =>
    obtain ⟨t, d⟩ := x
    unfold C12.serverExtensions
    simp only [bind_eq]
    have up : ∀ {q : Nat} {P : Prop}, (P ∨ ∃ d' ps, (14, d') ∈ rest ∧ env.parseUseSrtp d' = some (q :: ps)) →
        P ∨ ∃ d' ps, (14, d') ∈ (t, d) :: rest ∧ env.parseUseSrtp d' = some (q :: ps) :=
      fun h => h.imp_right fun ⟨d', ps, h1, h2⟩ => ⟨d', ps, List.mem_cons_of_mem _ h1, h2⟩
    split
    · rename_i h14
      subst h14
      rw [wp_bind]
      refine wp_orTransient_of (fun ps hps => ?_) ⟨s.srtp, rfl, fun q h => .inl h⟩
      split
      · refine wp_mono (ih _ _) ?_ ?_
        · rintro _ t ⟨p, rfl, g1, g2⟩
          refine ⟨p, rfl, fun q hq => up (g1 q hq), fun hp d' hd => ?_⟩
          cases hd with
          | head => exact hps
          | tail _ hd => exact g2 hp d' hd
        · rintro _ t ⟨p, rfl, g1⟩
          exact ⟨p, rfl, fun q hq => up (g1 q hq)⟩
      · rename_i p0 ps0
        rw [wp_bind, wp_modify]
        refine wp_mono (wp_and (ih _ _) (?_ : wp _ _ (fun _ t => t.srtp ≠ none) (fun _ _ => True))) ?_ ?_
        · -- a profile once set stays
          have stay : ∀ l b (u : Ses CSt), u.srtp ≠ none →
              wp (C12.serverExtensions env l b) u (fun _ t => t.srtp ≠ none) (fun _ _ => True) := by
            intro l
            induction l with
            | nil => exact fun _ _ h => h
            | cons x l ih =>
              obtain ⟨t, d⟩ := x
              intro b u hu
              unfold C12.serverExtensions
              simp only [bind_eq]
              split
              · rw [wp_bind]
                refine wp_orTransient_of (fun _ _ => ?_) trivial
                split
                · exact ih _ _ hu
                · rw [wp_bind, wp_modify]
                  exact ih _ _ nofun
              · exact ih _ _ hu
          exact stay _ _ _ nofun
        · rintro _ t ⟨⟨p, rfl, g1, g2⟩, g3⟩
          refine ⟨p, rfl, fun q hq => ?_, fun hp => absurd hp g3⟩
          rcases g1 q hq with g | g
          · cases g
            exact .inr ⟨d, ps0, List.mem_cons_self, hps⟩
          · exact up (.inr g)
        · rintro _ t ⟨⟨p, rfl, g1⟩, _⟩
          refine ⟨p, rfl, fun q hq => ?_⟩
          rcases g1 q hq with g | g
          · cases g
            exact .inr ⟨d, ps0, List.mem_cons_self, hps⟩
          · exact up (.inr g)
    · rename_i h14
      refine wp_mono (ih _ _) ?_ ?_
      · rintro _ t ⟨p, rfl, g1, g2⟩
        refine ⟨p, rfl, fun q hq => up (g1 q hq), fun hp d' hd => ?_⟩
        cases hd with
        | head => exact absurd rfl h14
        | tail _ hd => exact g2 hp d' hd
      · rintro _ t ⟨p, rfl, g1⟩
        exact ⟨p, rfl, fun q hq => up (g1 q hq)⟩

theorem awaitServerHello_stage (s : Ses CSt) (h : Stage env .awaitServerHello s) :
    wp (C12.awaitServerHello env) s (fun new s' => s'.st = s.st ∧ Stage env new s')
      (fun _ s' => s'.st = s.st ∧ Stage env .awaitServerHello s') := by
  obtain ⟨ms, h⟩ := h.view
  -- whatever happens, up to the ServerHello
  have bad : ∀ (s' : Ses CSt) (ns : List TMsg), s'.st = s.st → s'.random = s.random →
      s'.eng.transcript = s.eng.transcript ++ flat ns → (∀ m ∈ ns, m.t = 2) →
      (∀ p, s'.srtp = some p → s.srtp = some p ∨ ∃ m ∈ ns, m.t = 2 ∧ SaysSrtp env m.body p) →
      s'.st = s.st ∧ Stage env .awaitServerHello s' := by
    intro s' ns g1 g2 g3 g4 g5
    refine ⟨g1, ⟨ms ++ ns, by rw [g3, h.flat, flat_append], fun m hm hm1 => ?_, fun p hp => ?_, ?_, nofun⟩,
      nofun, nofun⟩
    · rcases List.mem_append.mp hm with hm | hm
      · rw [g2]; exact h.named m hm hm1
      · have := g4 m hm
        rw [hm1] at this
        exact absurd this (by decide)
    · rcases g5 p hp with g | ⟨m, g, g'⟩
      · obtain ⟨m, k1, k2⟩ := h.offered p g
        exact ⟨m, List.mem_append_left _ k1, k2⟩
      · exact ⟨m, List.mem_append_right _ g, g'⟩
    · rintro (g | g) <;> cases g
  unfold C12.awaitServerHello
  simp only [bind_eq, pure_eq, wp_bind, wp_onEng]
  have hmsg := to_wp (m := nextHandshake env.toEnv mtServerHello) (s := s.eng) (R := fun e : Eng =>
    e.transcript = s.eng.transcript ∨ ∃ seq body, e.transcript = s.eng.transcript ++ flat [⟨2, seq, body⟩])
    (nextHandshake_msg env.toEnv mtServerHello s.eng)
  refine wp_mono (wp_and (nextHandshake_ok env.toEnv mtServerHello s.eng (by decide)) hmsg) ?_ ?_
  · rintro m e ⟨⟨hg, ⟨rfl, rfl⟩ | ⟨b, seq, body, rfl, hlog, hp, htr⟩⟩, _⟩
    · exact ⟨rfl, ⟨ms, h⟩, nofun, nofun⟩
    · obtain ⟨x, rfl, hx⟩ := parseBody_serverHello hp
      rw [transcriptOf_bytes] at htr
      have one : ∀ m ∈ [(⟨2, seq, body⟩ : TMsg)], m.t = 2 := by simp
      have bad0 : ∀ s' : Ses CSt, s'.st = s.st → s'.random = s.random → s'.eng.transcript = e.transcript →
          s'.srtp = s.srtp → s'.st = s.st ∧ Stage env .awaitServerHello s' := fun s' g1 g2 g3 g4 =>
        bad s' [⟨2, seq, body⟩] g1 g2 (g3.trans htr) one (fun p hp => .inl (g4.symm.trans hp))
      dsimp only
      simp only [wp_bind]
      refine wp_check_of (fun _ => ?_) (bad0 _ rfl rfl rfl rfl)
      refine wp_check_of (fun _ => ?_) (bad0 _ rfl rfl rfl rfl)
      refine wp_check_of (fun _ => ?_) (bad0 _ rfl rfl rfl rfl)
      refine wp_check_of (fun _ => ?_) (bad0 _ rfl rfl rfl rfl)
      refine wp_check_of (fun _ => ?_) (bad0 _ rfl rfl rfl rfl)
      rw [wp_onEng]
      refine wp_mono (setCipherSuite_wp ..) ?_ ?_
      · rintro _ e2 ⟨_, _, rfl⟩
        simp only [wp_modify]
        refine wp_orFatal_of (fun xs hxs => ?_) (bad0 _ rfl rfl rfl rfl)
        have says : ∀ q, (∃ d ps, (14, d) ∈ xs ∧ env.parseUseSrtp d = some (q :: ps)) → SaysSrtp env body q :=
          fun q ⟨d, ps, g1, g2⟩ => ⟨x, xs, d, ps, hx, hxs, g1, g2⟩
        refine wp_mono (serverExtensions_spec _ _ _) ?_ ?_
        · rintro ems t ⟨p, rfl, g1, g2⟩
          have hoff : ∀ q, p = some q → s.srtp = some q ∨
              ∃ m ∈ [(⟨2, seq, body⟩ : TMsg)], m.t = 2 ∧ SaysSrtp env m.body q := fun q hq =>
            (g1 q hq).imp_right fun g => ⟨_, List.mem_singleton.mpr rfl, rfl, says q g⟩
          refine wp_check_of (fun _ => ?_) (bad _ [⟨2, seq, body⟩] rfl rfl htr one hoff)
          rw [wp_pure]
          refine ⟨rfl, ⟨ms ++ [⟨2, seq, body⟩], (show e.transcript = _ by rw [htr, h.flat, flat_append]),
            fun m hm hm1 => ?_, fun q hq => ?_, ?_, fun _ => ?_⟩, ?_, ?_⟩
          · rcases List.mem_append.mp hm with hm | hm
            · exact h.named m hm hm1
            · have := one m hm
              rw [hm1] at this
              exact absurd this (by decide)
          · rcases hoff q hq with g | ⟨m, g, g'⟩
            · obtain ⟨m, k1, k2⟩ := h.offered q g
              exact ⟨m, List.mem_append_left _ k1, k2⟩
            · exact ⟨m, List.mem_append_right _ g, g'⟩
          · split <;> rintro (g | g) <;> cases g
          · refine ⟨body, x, xs, ?_, hx, rfl, rfl, hxs, g2⟩
            rw [lastOf_append]
            rfl
          · split <;> nofun
          · split <;> nofun
        · rintro _ t ⟨p, rfl, g1⟩
          exact bad _ [⟨2, seq, body⟩] rfl rfl htr one fun q hq =>
            (g1 q hq).imp_right fun g => ⟨_, List.mem_singleton.mpr rfl, rfl, says q g⟩
      · rintro _ e2 rfl
        exact bad0 _ rfl rfl rfl rfl
  · rintro _ e ⟨_, g | ⟨seq, body, g⟩⟩
    · exact ⟨trivial, (bad { s with eng := e } [] rfl rfl (g.trans (List.append_nil _).symm) nofun
        fun p hp => .inl hp).2⟩
    · exact ⟨trivial, (bad { s with eng := e } [⟨2, seq, body⟩] rfl rfl g (by simp) fun p hp => .inl hp).2⟩

theorem sendFinished_stage (s : Ses CSt) (h : Stage env .sendFinished s) :
    wp (C12.sendFinished env) s (fun new s' => s'.st = s.st ∧ Stage env new s')
      (fun _ s' => s'.st = s.st ∧ Stage env .sendFinished s') := by
  obtain ⟨ms, h⟩ := h.view
  have hk := client_kept (env := env) .sendFinished nofun s
  have hw : wp (C12.sendFinished env) s (fun new s' => new = .awaitChangeCipherSpec ∧ ∃ m v seq,
      s'.eng.master = some m ∧ env.verifyData m true s.eng.transcript = some v ∧
      s'.eng.transcript = s.eng.transcript ++ flat [⟨20, seq, v⟩]) (fun _ _ => True) := by
    unfold C12.sendFinished
    simp only [bind_eq, pure_eq, wp_bind, wp_onEng]
    refine wp_of (fun v e he => ?_) (fun _ _ _ => trivial)
    obtain ⟨m, cs, hm, hcs, hv, rfl⟩ := generateVerifyData_ok he
    refine wp_mono (to_wp (R := fun e : Eng => e.master = s.eng.master ∧
      e.transcript = s.eng.transcript ++ flat [⟨20, s.eng.nextSeq, v⟩])
      ⟨(createHandshake_grow env.toEnv mtFinished v s.eng).master, createHandshake_msg env.toEnv mtFinished v s.eng⟩) ?_
      (fun _ _ _ => trivial)
    rintro _ e ⟨g1, g2⟩
    exact ⟨rfl, m, v, s.eng.nextSeq, g1.trans hm, hv, g2⟩
  refine wp_mono (wp_and hw (wp_and (to_wp (m := C12.sendFinished env) (s := s)
    (R := fun s' => Kept s s' ∧ s'.st = s.st ∧ s'.random = s.random) hk)
    (AFr.wp (C12.step_afr (env := env) .sendFinished nofun nofun nofun) s))) ?_ ?_
  · rintro new s' ⟨⟨rfl, m, v, seq, g1, g2, g3⟩, ⟨g4, g5, _⟩, g6⟩
    refine ⟨g5, h.go g4 g6 nofun (fun _ => rfl), fun _ => ⟨v, ms, m, seq, (h.params rfl).kept g4, g1, ?_, ?_⟩, nofun⟩
    · rw [← h.flat]; exact g2
    · rw [g3, flat_append, ← h.flat]
      exact List.prefix_refl _
  · rintro _ s' ⟨_, ⟨g4, g5, _⟩, g6⟩
    exact ⟨g5, h.go g4 g6 (fun g => g) (fun g => g), nofun, nofun⟩

theorem awaitFinished_stage (s : Ses CSt) (h : Stage env .awaitFinished s) :
    wp (C12.awaitFinished env) s (fun new s' => s'.st = s.st ∧ Stage env new s')
      (fun _ s' => s'.st = s.st ∧ Stage env .awaitFinished s') := by
  have hsaid := h.said rfl
  obtain ⟨ms, h⟩ := h.view
  have hpj : Proj (fun s : Ses CSt => s.eng.master) := by
    rintro s e ⟨_, _, _, _, _, _, _, _, _, _, _, es, he, rfl⟩; rfl
  have hr : Keeps (fun s : Ses CSt => s.eng.master) (onEng' releaseAppData : P CSt Unit) := fun _ => rfl
  have hm : Keeps (fun s : Ses CSt => s.eng.master) (C12.awaitFinished env) := by
    unfold C12.awaitFinished announceConnected; simp only [bind_eq, pure_eq]; keeps
  have hw : wp (C12.awaitFinished env) s (fun new s' => new = .awaitFinished ∨ ∃ m v cs seq body,
      s'.eng.master = some m ∧ s'.eng.suite = some cs ∧ env.parseFinished cs body = some ([], v) ∧
      .consumed seq 20 body ∈ s'.eng.log ∧ env.verifyData m false s.eng.transcript = some v ∧
      flat (ms ++ [⟨20, seq, body⟩]) <+: s'.eng.transcript) (fun _ _ => True) := by
    unfold C12.awaitFinished
    simp only [bind_eq, pure_eq, wp_bind, wp_onEng]
    refine wp_of (fun v e he => ?_) (fun _ _ _ => trivial)
    obtain ⟨m, cs, hm, hcs, hv, rfl⟩ := generateVerifyData_ok he
    refine wp_mono (nextHandshake_ok env.toEnv mtFinished s.eng (by decide)) ?_ (fun _ _ _ => trivial)
    rintro mm e ⟨hg, ⟨rfl, rfl⟩ | ⟨b, seq, body, rfl, hlog, hp, htr⟩⟩
    · exact .inl rfl
    obtain ⟨cs', x, hsu, rfl, hx⟩ := parseBody_finished hp
    rw [hcs] at hsu; cases hsu
    dsimp only
    rw [wp_bind]
    refine wp_check_of (fun hc => ?_) trivial
    have hc : x = v := by simpa using hc
    subst hc
    refine wp_mono (SFr.wp (announce_later (env := env) CSt.awaitApplicationData (·.random) (·.peerRandom)) _) ?_
      (fun _ _ _ => trivial)
    rintro new s' ⟨hl, _⟩
    obtain ⟨es, hes⟩ := hl.log
    obtain ⟨t, ht⟩ := hl.transcript
    have ht : s'.eng.transcript = e.transcript ++ t := ht
    refine .inr ⟨m, x, cs, seq, body, hl.master.trans (hg.master.trans hm), hl.suite.trans (hg.suite.trans hcs), hx,
      ?_, hv, ?_⟩
    · rw [hes]
      refine List.mem_append_right _ ?_
      show _ ∈ e.log
      rw [hlog]; exact List.mem_cons_self
    · rw [flat_append, ← h.flat, ht, htr, transcriptOf_bytes]
      exact ⟨t, rfl⟩
  refine wp_mono (wp_and (wp_and hw (Rets.wp (C12.step_next (env := env) .awaitFinished) s)) (wp_and (wp_and
    (to_wp (m := C12.awaitFinished env) (s := s) (R := fun s' => Kept s s' ∧ s'.st = s.st ∧ s'.random = s.random)
      (client_kept (env := env) .awaitFinished nofun s))
    (to_wp (m := C12.awaitFinished env) (s := s) (R := fun s' => s'.eng.master = s.eng.master) (hm s)))
    (AFr.wp (C12.step_afr (env := env) .awaitFinished nofun nofun nofun) s))) ?_ ?_
  · rintro new s' ⟨⟨k, hn⟩, ⟨⟨g1, g2, _⟩, g3⟩, g4⟩
    have hs := said_go hsaid g1 g3 g4
    simp only [C12.next, List.mem_cons, List.not_mem_nil, or_false] at hn
    rcases hn with rfl | rfl
    · exact ⟨g2, h.go g1 g4 (fun g => g) (fun g => g), fun _ => hs, nofun⟩
    · refine ⟨g2, h.go g1 g4 (by rintro (g | g) <;> cases g) (fun _ => rfl), fun _ => hs, fun _ => ?_⟩
      rcases k with k | ⟨m, v, cs, seq, body, k1, k2, k3, k4, k5, k6⟩
      · cases k
      · exact ⟨v, ms, m, cs, seq, body, (h.params rfl).kept g1, k1, k2, k4, k3, by rw [← h.flat]; exact k5, k6⟩
  · rintro _ s' ⟨_, ⟨⟨g1, g2, _⟩, g3⟩, g4⟩
    exact ⟨g2, h.go g1 g4 (fun g => g) (fun g => g), fun _ => said_go hsaid g1 g3 g4, nofun⟩

theorem next_le (x new : CSt) (hn : new ∈ C12.next x) (h1 : x ≠ .awaitServerHello) (h2 : x ≠ .sendClientHello)
    (h3 : x ≠ .awaitHelloVerifyRequest) (h4 : x ≠ .sendFinished) (h5 : x ≠ .awaitFinished) :
    (new = .sendClientHello ∨ new = .awaitHelloVerifyRequest → x = .sendClientHello ∨ x = .awaitHelloVerifyRequest) ∧
    (helloed new = true → helloed x = true) ∧ (finished new = true → finished x = true) ∧
    (new = .awaitApplicationData → x = .awaitApplicationData) := by
  revert hn h1 h2 h3 h4 h5
  cases x <;> cases new <;> decide

/-- After the Finished the master secret stays. -/
theorem finished_later (st : CSt) (hf : finished st = true) (h5 : st ≠ .awaitFinished) (s : Ses CSt) :
    Later s (C12.step env st s).2 := by
  cases st
  case awaitApplicationData => exact (app_later _ _ s).1
  case awaitChangeCipherSpec => exact (ccs_later _ _ s).1
  case awaitFinished => exact absurd rfl h5
  case awaitNewSessionTicket =>
    have hf := Later.rel (St := CSt)
    have : SFr Later (C12.awaitNewSessionTicket env) := by
      unfold C12.awaitNewSessionTicket; simp only [bind_eq, pure_eq]; sfr hf
    exact (this s).1
  all_goals exact absurd hf (by decide)

theorem saga (hw : ClientWrites env) : Saga C12.role env (Stage env) (Done env) where
  later st s s' hl h := by
    refine ⟨View.still h.view hl, fun g => ?_, fun g => ?_⟩
    · obtain ⟨v, h⟩ := h.said g
      exact ⟨v, h.still params_kept hl⟩
    · obtain ⟨v, h⟩ := h.took g
      exact ⟨v, h.still params_kept hl⟩
  closed st s h := by
    obtain ⟨ms, h⟩ := h.view
    exact ⟨⟨ms, h.flat, h.named, h.offered, (by rintro (g | g) <;> cases g), nofun⟩, nofun, nofun⟩
  app s h := ⟨h.said rfl, h.took rfl⟩
  done s s' hl h := by
    obtain ⟨v, h1⟩ := h.said
    obtain ⟨w, h2⟩ := h.took
    exact ⟨⟨v, h1.still params_kept hl⟩, w, h2.still params_kept hl⟩
  step st s h := by
    show wp (C12.step env st) s _ _
    by_cases h1 : st = .awaitServerHello
    · subst h1; exact awaitServerHello_stage s h
    by_cases h2 : st = .sendClientHello
    · subst h2; exact sendClientHello_stage hw s h
    by_cases h3 : st = .awaitHelloVerifyRequest
    · subst h3; exact awaitHelloVerifyRequest_stage s h
    by_cases h4 : st = .sendFinished
    · subst h4; exact sendFinished_stage s h
    by_cases h5 : st = .awaitFinished
    · subst h5; exact awaitFinished_stage s h
    obtain ⟨ms, hv⟩ := h.view
    have hkept := client_kept (env := env) st h1 s
    have hadds := C12.step_afr (env := env) st h1 h2 h3 s
    have hdone : ∀ s' : Ses CSt, Kept s s' → Adds NotHello s.eng s'.eng → (finished st = true → Later s s') →
        (finished st = true → ∃ v, Said (Params env) env true s' v) ∧
        (st = .awaitApplicationData → ∃ v, Took (Params env) env false s' v) := by
      intro s' g1 g2 g3
      refine ⟨fun g => said_go (h.said g) g1 (g3 g).master g2, fun g => ?_⟩
      obtain ⟨v, k⟩ := h.took g
      have hl := g3 (by rw [g]; rfl)
      obtain ⟨t, ht⟩ := hl.transcript
      exact ⟨v, k.kept params_kept g1 hl.master ⟨t, ht.symm⟩ hl.log⟩
    refine wp_mono (wp_and (to_wp (m := C12.step env st) (s := s) (R := fun s' => (Kept s s' ∧ s'.st = s.st) ∧
      Adds NotHello s.eng s'.eng ∧ (finished st = true → Later s s'))
      ⟨⟨hkept.1, hkept.2.1⟩, hadds, fun g => finished_later st g h5 s⟩)
      (Rets.wp (C12.step_next (env := env) st) s)) ?_ ?_
    · rintro new s' ⟨⟨⟨g1, g2⟩, g3, g4⟩, hn⟩
      obtain ⟨n1, n2, n3, n4⟩ := next_le _ _ hn h1 h2 h3 h4 h5
      obtain ⟨d1, d2⟩ := hdone s' g1 g3 g4
      exact ⟨g2, hv.go g1 g3 n1 n2, fun g => d1 (n3 g), fun g => d2 (n4 g)⟩
    · rintro _ s' ⟨⟨⟨g1, g2⟩, g3, g4⟩, _⟩
      obtain ⟨d1, d2⟩ := hdone s' g1 g3 g4
      exact ⟨g2, hv.go g1 g3 id id, d1, d2⟩

end Verif.Props.Agree12.Client

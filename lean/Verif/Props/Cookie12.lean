import Verif.Props.ShakeServer12
import Verif.Props.Send12
/-!
# What a DTLS 1.2 server does before a cookie came back (C43)
-/
namespace Verif.Props.Shake12
open Verif Wire Window Timer Aead M E12 Props.Send12

/-! ## C43: the cookie -/

/-- A ClientHello with the cookie for its random came. -/
def CookieOk {St : Type} (env : PEnv) (s : Ses St) : Prop :=
  ∃ body ch, Got s mtClientHello body ∧ env.parseClientHello body = some ([], ch) ∧ ch.cookie.length = 32 ∧
    env.hmac env.cookieSecret ch.random = some ch.cookie

/-- A piece of a HelloVerifyRequest (type 3) with a cookie, in a plaintext handshake record. -/
def HelloVerify (env : PEnv) (c : UInt8) (epoch : Nat) (p : Bytes) : Prop :=
  c = 22 ∧ epoch = 0 ∧ ∃ random cookie off, env.hmac env.cookieSecret random = some cookie ∧
    p.head? = some 3 ∧ p.drop 12 <+: (env.helloVerifyBody cookie).drop off

theorem CookieOk.ext {St : Type} {env : PEnv} {s s' : Ses St} (h : CookieOk env s) (he : Ext s.eng s'.eng) :
    CookieOk env s' := by
  obtain ⟨b, ch, ⟨q, h1⟩, h2⟩ := h
  obtain ⟨es, he⟩ := he
  exact ⟨b, ch, ⟨q, by rw [he]; exact List.mem_append_right _ h1⟩, h2⟩

theorem ClientHelloOk.cookie {St : Type} {env : PEnv} {s : Ses St} (h : ClientHelloOk env s)
    (hu : env.useCookie = true) : CookieOk env s := by
  obtain ⟨b, ch, cs, h1, h2, _, _, _, _, h3, _⟩ := h
  exact ⟨b, ch, h1, h2, h3 hu⟩

namespace Server
variable {env : PEnv}

theorem helloVerify_epoch (c : UInt8) (ep : Nat) (p : Bytes) (h : HelloVerify env c ep p) : ep = 0 := h.2.1

/-- No cookie, no answer. -/
def Unanswered (env : PEnv) (s : Ses SSt) : Prop :=
  (s.st = .awaitClientHello ∨ s.st = .closed) ∧ Only (HelloVerify env) s.eng

theorem awaitClientHello_only (s : Ses SSt) (h : Only (HelloVerify env) s.eng) :
    Only (HelloVerify env) (S12.awaitClientHello env s).2.eng := by
  apply of_wp (m := S12.awaitClientHello env) (R := fun s' => Only (HelloVerify env) s'.eng)
  unfold S12.awaitClientHello
  simp only [bind_eq, pure_eq, wp_bind, wp_onEng]
  refine wp_mono (to_wp (R := Only (HelloVerify env))
    (nextHandshake_only env.toEnv s.eng mtClientHello h)) ?_ (fun _ _ g => g)
  intro m e he
  split
  · exact he
  · simp only [wp_bind]
    refine wp_check_of (fun _ => ?_) he
    refine wp_check_of (fun _ => ?_) he
    split
    · unfold S12.acceptClientHello
      simp only [bind_eq, pure_eq, wp_bind]
      refine wp_orFatal_of (fun cs _ => ?_) he
      rw [wp_onEng]
      refine wp_mono (setCipherSuite_wp ..) ?_ ?_
      · rintro _ e2 ⟨_, _, rfl⟩
        simp only [wp_modify]
        refine wp_mono (clientExtensions_spec _ _ _) ?_ ?_
        · rintro x t ⟨rfl, _⟩
          refine wp_check_of (fun _ => ?_) he
          exact he
        · rintro _ t rfl
          exact he
      · rintro _ e2 rfl
        exact he
    · unfold S12.sendHelloVerify
      simp only [bind_eq, pure_eq, wp_bind]
      refine wp_orFatal_of (fun cookie hc => ?_) he
      rw [wp_onEng', wp_onEng]
      have h1 : Only (HelloVerify env) (flightBegin env.toEnv e) := ⟨he.1, nofun⟩
      have h0 : ∀ q off n, HelloVerify env ctHandshake 0
          (hsFragment mtHelloVerifyRequest q (env.helloVerifyBody cookie) off n) := by
        intro q off n
        refine ⟨rfl, rfl, _, cookie, off, hc, rfl, ?_⟩
        have : (hsFragment mtHelloVerifyRequest q (env.helloVerifyBody cookie) off n).drop 12
            = ((env.helloVerifyBody cookie).drop off).take n := by
          unfold hsFragment serializeHs
          rw [List.drop_append_of_le_length (by simp [serializeHsHeader]),
            List.drop_of_length_le (by simp [serializeHsHeader]), List.nil_append]
        rw [this]
        exact List.take_prefix _ _
      have h2 := createHandshake_only env.toEnv mtHelloVerifyRequest (env.helloVerifyBody cookie)
        (flightBegin env.toEnv e) rfl h0 h1
      refine wp_mono (to_wp (R := Only (HelloVerify env)) h2) ?_ (fun _ _ g => g)
      intro _ e2 g
      rw [wp_onEng', wp_pure]
      exact g
  · exact he

/-- The invariant behind `cookie_first`. -/
def CookieInv (env : PEnv) (s : Ses SSt) : Prop :=
  OnTrack S12.role (Stage env) (Done env) s ∧ (CookieOk env s ∨ Unanswered env s)

theorem keep {s s' : Ses SSt} (h : CookieOk env s ∨ Unanswered env s) (he : Ext s.eng s'.eng)
    (ho : Onl (HelloVerify env) s.eng s'.eng) (hst : s'.st = s.st) : CookieOk env s' ∨ Unanswered env s' :=
  h.elim (fun g => .inl (g.ext he)) fun g => .inr ⟨hst ▸ g.1, ho g.2⟩

theorem cookieInv (hu : env.useCookie = true) : Stable S12.role env (fun _ => True) (CookieInv env) where
  packet s p h := by
    have hs := (Saga.stable S12.showRule (S12.roleOk env) (saga (env := env))).packet s p h.1
    exact ⟨hs, keep h.2 (((inFrame_grow env.toEnv).parsePacket p s.eng).log)
      ((inFrame_only helloVerify_epoch env.toEnv).parsePacket p s.eng) rfl⟩
  note s n h := by
    refine ⟨(Saga.stable S12.showRule (S12.roleOk env) (saga (env := env))).note s n h.1, ?_⟩
    unfold noteTime
    split
    · exact keep h.2 (.of rfl) (.of rfl rfl) rfl
    · exact keep h.2 (.of rfl) (.of rfl rfl) rfl
  timeout s n h := ⟨(Saga.stable S12.showRule (S12.roleOk env) (saga (env := env))).timeout s n h.1,
    keep h.2 ((handleTimeout_grow env.toEnv n s.eng).log) (handleTimeout_only helloVerify_epoch env.toEnv n s.eng) rfl⟩
  step s h := by
    have hs := (Saga.stable S12.showRule (S12.roleOk env) (saga (env := env))).step s h.1
    have he := step_ext (S12.roleOk env) s
    have he' : wp (S12.role.step env s.st) s (fun _ s' => Ext s.eng s'.eng ∧ s'.st = s.st)
        (fun _ s' => Ext s.eng s'.eng ∧ s'.st = s.st) := to_wp (R := fun s' : Ses SSt => Ext s.eng s'.eng ∧ s'.st = s.st) he
    rcases h.2 with g | ⟨g | g, ho⟩
    · refine wp_mono (wp_and hs he') ?_ ?_
      · rintro new s' ⟨⟨h1, h2⟩, h3, _⟩
        exact ⟨h1, h2, .inl (CookieOk.ext (s' := { s' with st := new }) g h3)⟩
      · rintro _ s' ⟨h2, h3, _⟩
        exact ⟨h2, .inl (g.ext h3)⟩
    · have ho' : wp (S12.role.step env s.st) s (fun _ s' => Only (HelloVerify env) s'.eng)
          (fun _ s' => Only (HelloVerify env) s'.eng) := by
        rw [g]
        exact to_wp (R := fun s' : Ses SSt => Only (HelloVerify env) s'.eng) (awaitClientHello_only s ho)
      refine wp_mono (wp_and hs (wp_and he' ho')) ?_ ?_
      · rintro new s' ⟨⟨h1, h2⟩, h3, h4⟩
        refine ⟨h1, h2, ?_⟩
        by_cases h5 : new = SSt.awaitClientHello ∨ new = SSt.closed
        · exact .inr ⟨h5, h4⟩
        · left
          have h6 : 1 ≤ rank new := (by intro x; cases x <;> decide :
            ∀ x : SSt, ¬(x = SSt.awaitClientHello ∨ x = SSt.closed) → 1 ≤ rank x) new h5
          exact ClientHelloOk.cookie (h2.stage.hello h6) hu
      · rintro _ s' ⟨h2, ⟨_, h3⟩, h4⟩
        exact ⟨h2, .inr ⟨.inl (h3.trans g), h4⟩⟩
    · have h0 : wp (S12.role.step env s.st) s (fun new s' => new = SSt.closed ∧ s' = s) (fun _ _ => False) := by
        rw [g]; exact ⟨rfl, rfl⟩
      refine wp_mono (wp_and hs h0) ?_ (fun _ _ h => h.2.elim)
      rintro new s' ⟨⟨h1, h2⟩, rfl, rfl⟩
      exact ⟨h1, h2, .inr ⟨.inr rfl, ho⟩⟩
  send s d hd h := by
    refine ⟨(Saga.stable S12.showRule (S12.roleOk env) (saga (env := env))).send s d hd h.1, ?_⟩
    apply of_wp (m := sendM S12.role env d) (R := fun s' => CookieOk env s' ∨ Unanswered env s')
    unfold sendM
    simp only [bind_eq, wp_bind, wp_get]
    split
    · exact h.2
    · split
      · exact keep h.2 (.of rfl) (.of rfl rfl) rfl
      · rename_i h1 h2
        have h3 : s.st = SSt.awaitApplicationData := Classical.not_not.mp h2
        rw [wp_state]
        rcases h.2 with g | ⟨g | g, _⟩
        · exact .inl (CookieOk.ext g (createRecord_grow ..).log)
        · rw [h3] at g; cases g
        · rw [h3] at g; cases g
  close s h := by
    refine ⟨(Saga.stable S12.showRule (S12.roleOk env) (saga (env := env))).close s h.1, ?_⟩
    apply of_wp (m := closeM S12.role env) (R := fun s' => CookieOk env s' ∨ Unanswered env s')
    unfold closeM sendCloseNotify
    simp only [bind_eq, pure_eq, wp_bind, wp_get]
    split
    · exact h.2
    · split
      · simp only [wp_bind, wp_onEng', wp_modify]
        rcases h.2 with g | g
        · exact .inl (CookieOk.ext g (.of rfl))
        · exact .inr ⟨.inr rfl, g.2.1, nofun⟩
      · rename_i h1 h2
        have h3 : s.st = SSt.awaitApplicationData := Classical.not_not.mp h2
        rcases h.2 with g | ⟨g | g, _⟩
        · simp only [wp_bind, wp_modify, wp_onEng]
          have hg := createRecord_grow env.toEnv ctAlert 1 false false [1, 0] s.eng
          have hw := wp_state (m := createRecord env.toEnv ctAlert 1 false false [1, 0]) (s := s.eng)
            (R := fun e => Grow s.eng e) |>.mpr hg
          refine wp_mono hw ?_ ?_
          · exact fun _ e g1 => .inl (CookieOk.ext (s' := { s with eng := e, st := SSt.closed }) g g1.log)
          · exact fun _ e g1 => .inl (CookieOk.ext (s' := { s with eng := e }) g g1.log)
        · rw [h3] at g; cases g
        · rw [h3] at g; cases g
  poll s n h := by
    refine ⟨(Saga.stable S12.showRule (S12.roleOk env) (saga (env := env))).poll s n h.1, ?_⟩
    unfold pollM
    split
    · exact keep h.2 (.of rfl) (.of rfl rfl) rfl
    · exact keep h.2 (pollOutput_grow ..).log (pollOutput_only n s.lastNow s.eng) rfl

end Server

/-- **C43.** With cookies required, until the server has received a ClientHello carrying the cookie it
computes for the random in it, it is still waiting for a ClientHello (or closed), and every record in
every datagram it ever returned is a plaintext handshake record with a piece of a HelloVerifyRequest. -/
theorem cookie_first_partial (env : PEnv) (cfg : Cfg) (now : Nat) (hu : env.useCookie = true)
    (hd : DecShort env.toEnv) (cs : List Call) :
    let r := run S12.role env (S12.start env cfg now) cs
    CookieOk env r.2 ∨
    ((r.2.st = SSt.awaitClientHello ∨ r.2.st = SSt.closed) ∧
      ∃ rss : List (List Rec12), packets (outputs r.1) = rss.map wireOf ∧
        ∀ x ∈ rss.flatten, x.epoch = 0 ∧ HelloVerify env x.ctype x.epoch x.fragment) := by
  intro r
  have h : Server.CookieInv env r.2 := (Server.cookieInv hu).run _ cs (fun _ _ => trivial)
    ⟨Server.start_onTrack env cfg now, .inr ⟨.inl rfl, nofun, nofun⟩⟩
  rcases h.2 with g | ⟨g1, g2⟩
  · exact .inl g
  · obtain ⟨rss, e1, _, e3⟩ := wired (.server now) hd cs
    refine .inr ⟨g1, rss, e1, fun x hx => ?_⟩
    obtain ⟨plain, hm⟩ := e3 x hx
    have hq := g2.1 _ _ _ _ hm.queued
    have h0 : x.epoch = 0 := hq.2.1
    rcases hm.body with ⟨_, hf⟩ | ⟨h1, _⟩
    · rw [hf]; exact ⟨h0, hq⟩
    · omega

end Verif.Props.Shake12

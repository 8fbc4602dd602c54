import Verif.Props.Sense
import Verif.Props.Agree12
import Verif.Props.MsgDemo
/-!
# C76: two endpoints that both speak DTLS 1.3, and an attacker who wants DTLS 1.2
-/
namespace Verif.Props.Downgrade
open Verif

/-! ## What an auto-sensing client's Finished covers if there is no HelloVerifyRequest -/

section
open Wire Window Timer Aead M E12 Agree12

/-- A HelloVerifyRequest was taken. -/
def Hvr (s : Ses CSt) : Prop := ∃ seq body, .consumed seq 3 body ∈ s.eng.log

/-- The transcript begins with `m`, and has no other ClientHello. -/
def Only (m : TMsg) (s : Ses CSt) : Prop :=
  ∃ ns : List TMsg, (∀ x ∈ ns, x.t ≠ 1) ∧ s.eng.transcript = flat (m :: ns)

theorem Only.adds {m : TMsg} {s s' : Ses CSt} (h : Only m s) (ha : Adds (· ≠ 1) s.eng s'.eng) : Only m s' := by
  obtain ⟨ns, h1, h2⟩ := h
  obtain ⟨xs, g1, g2⟩ := ha
  refine ⟨ns ++ xs, fun x hx => ?_, by rw [g2, h2, ← flat_append]; rfl⟩
  rcases List.mem_append.mp hx with hx | hx
  · exact h1 x hx
  · exact g1 x hx

/-- The log grows. -/
def LogExt (s s' : Ses CSt) : Prop := ∃ es, s'.eng.log = es ++ s.eng.log

theorem logExt_rel : SRel LogExt where
  refl s := ⟨[], rfl⟩
  trans a b c := by
    rintro ⟨x, h⟩ ⟨y, g⟩
    exact ⟨y ++ x, by rw [g, h, List.append_assoc]⟩
  eng s e h := h.log

theorem Hvr.ext {s s' : Ses CSt} (h : Hvr s) (hl : LogExt s s') : Hvr s' := by
  obtain ⟨q, b, h⟩ := h
  obtain ⟨es, hl⟩ := hl
  exact ⟨q, b, by rw [hl]; exact List.mem_append_right _ h⟩

variable {env : PEnv}

theorem set_ext (cs : Nat) : SFr LogExt (onEng (setCipherSuite env.toEnv cs) : P CSt Unit) := by
  intro s
  refine ⟨⟨[], ?_⟩, rfl⟩
  show (setCipherSuite env.toEnv cs s.eng).2.log = _
  unfold setCipherSuite
  split <;> rfl

theorem mod_ext {f : Ses CSt → Ses CSt} (h : ∀ s, (f s).eng = s.eng) (hs : ∀ s, (f s).st = s.st) :
    SFr LogExt (M.modify f) := .modify (fun s => ⟨[], by rw [h]; rfl⟩) hs

theorem exts_ext (l : List (Nat × Bytes)) (b : Bool) : SFr LogExt (C12.serverExtensions env l b) := by
  have hf := logExt_rel
  induction l generalizing b with
  | nil => exact .pure hf _
  | cons x l ih =>
    obtain ⟨t, d⟩ := x
    unfold C12.serverExtensions
    simp only [bind_eq]
    split
    · refine .bind hf (.orTransient hf _) fun ps => ?_
      split
      · exact ih _
      · exact .bind hf (mod_ext (fun _ => rfl) (fun _ => rfl)) fun _ => ih _
    · exact ih _

theorem step_ext (st : CSt) (s : Ses CSt) : LogExt s (C12.step env st s).2 ∧ (C12.step env st s).2.st = s.st := by
  have hf := logExt_rel
  have hm := fun f h hs => mod_ext (f := f) h hs
  have hx := fun l b => exts_ext (env := env) l b
  have hc := fun c => set_ext (env := env) c
  by_cases h1 : st = .awaitServerHello
  · subst h1
    refine (?_ : SFr LogExt _) s
    unfold C12.step C12.awaitServerHello
    simp only [bind_eq, pure_eq]
    sfr hf
    · exact hc _
    · exact hm _ (fun _ => rfl) (fun _ => rfl)
    · exact hx _ _
  by_cases h2 : st = .awaitCertificate
  · subst h2
    refine (?_ : SFr LogExt _) s
    unfold C12.step C12.awaitCertificate
    simp only [bind_eq, pure_eq]
    sfr hf
    exact hm _ (fun _ => rfl) (fun _ => rfl)
  by_cases h3 : st = .awaitHelloVerifyRequest
  · subst h3
    refine (?_ : SFr LogExt _) s
    unfold C12.step C12.awaitHelloVerifyRequest
    simp only [bind_eq, pure_eq]
    sfr hf
    · exact hm _ (fun _ => rfl) (fun _ => rfl)
    · exact fun s => ⟨⟨[], rfl⟩, rfl⟩
  have h := C12.step_near (env := env) st h1 h2 h3 s
  exact ⟨h.1.log, h.2⟩

instance (t : UInt8) : Decidable ((· ≠ (1 : UInt8)) t) := by dsimp only; infer_instance

theorem exts_adds {T : UInt8 → Prop} (l : List (Nat × Bytes)) (b : Bool) : AFr T (C12.serverExtensions env l b) := by
  induction l generalizing b with
  | nil => exact .pure _
  | cons x l ih =>
    obtain ⟨t, d⟩ := x
    unfold C12.serverExtensions
    simp only [bind_eq]
    split
    · refine .bind (.orTransient _) fun ps => ?_
      split
      · exact ih _
      · exact .bind (.modify fun _ => rfl) fun _ => ih _
    · exact ih _

theorem set_adds {T : UInt8 → Prop} (cs : Nat) : AFr T (onEng (setCipherSuite env.toEnv cs) : P CSt Unit) := by
  intro s
  refine .same ?_
  show (setCipherSuite env.toEnv cs s.eng).2.transcript = _
  unfold setCipherSuite
  split <;> rfl

/-- No step but that of a ClientHello or HelloVerifyRequest adds a ClientHello to the transcript or takes
something away. -/
theorem step_adds (st : CSt) (h2 : st ≠ .sendClientHello) (h3 : st ≠ .awaitHelloVerifyRequest) :
    AFr (· ≠ 1) (C12.step env st) := by
  by_cases h1 : st = .awaitServerHello
  · subst h1
    unfold C12.step C12.awaitServerHello
    simp only [bind_eq, pure_eq]
    afr
    · exact set_adds _
    · exact exts_adds _ _
  · intro s
    obtain ⟨ms, g1, g2⟩ := C12.step_afr (env := env) st h1 h2 h3 s
    exact ⟨ms, fun m hm => (g1 m hm).1, g2⟩

/-- In which states what holds. -/
def Stage (m : TMsg) (st : CSt) (s : Ses CSt) : Prop := Hvr s ∨ (st ≠ .sendClientHello ∧ Only m s)

theorem next_not (st new : CSt) (hn : new ∈ C12.next st) (h : st ≠ .awaitHelloVerifyRequest) :
    new ≠ .sendClientHello := by
  revert hn h; cases st <;> cases new <;> decide

theorem hvr_stage (m : TMsg) (s : Ses CSt) (h : Only m s) :
    wp (C12.awaitHelloVerifyRequest env) s (fun new s' => Stage m new s')
      (fun _ s' => Stage m .awaitHelloVerifyRequest s') := by
  unfold C12.awaitHelloVerifyRequest
  simp only [bind_eq, pure_eq, wp_bind, wp_get]
  split
  · exact .inr ⟨nofun, h⟩
  rw [wp_bind, wp_onEng]
  have ha := to_wp (m := nextHandshake env.toEnv mtHelloVerifyRequest) (s := s.eng)
    (R := fun e : Eng => Adds (· ≠ 1) s.eng e) (nextHandshake_adds env.toEnv mtHelloVerifyRequest (by decide) s.eng)
  refine wp_mono (wp_and ha (nextHandshake_ok env.toEnv mtHelloVerifyRequest s.eng (by decide))) ?_ ?_
  · rintro x e ⟨ha, hg, ⟨rfl, rfl⟩ | ⟨b, seq, body, rfl, hlog, hp, htr⟩⟩
    · exact .inr ⟨nofun, h⟩
    · have hv : ∀ s' : Ses CSt, s'.eng.log = e.log → Hvr s' := fun s' hs =>
        ⟨seq, body, by rw [hs, hlog]; exact List.mem_cons_self⟩
      split
      · rename_i hb; cases hb
      · rw [wp_bind]
        refine wp_check_of (fun _ => ?_) (.inl (hv _ rfl))
        simp only [wp_bind, wp_modify, wp_onEng', wp_pure]
        exact .inl (hv _ rfl)
      · exact .inl (hv _ rfl)
  · rintro _ e ⟨ha, _⟩
    exact .inr ⟨nofun, h.adds (s' := { s with eng := e }) ha⟩

theorem saga (m : TMsg) : Saga C12.role env (Stage m) (fun s => Hvr s ∨ Only m s) where
  later st s s' hl h := by
    rcases h with h | ⟨h, g⟩
    · exact .inl (h.ext hl.log)
    · exact .inr ⟨h, g.adds (.same hl.same)⟩
  closed st s h := h.imp_right fun h => ⟨nofun, h.2⟩
  app s h := h.imp_right fun h => h.2
  done s s' hl h := by
    rcases h with h | h
    · exact .inl (h.ext hl.log)
    · exact .inr (h.adds (.same hl.same))
  step st s h := by
    show wp (C12.step env st) s _ _
    have hx := to_wp (m := C12.step env st) (s := s) (R := fun s' => LogExt s s' ∧ s'.st = s.st) (step_ext st s)
    rcases h with h | ⟨h1, h⟩
    · exact wp_mono hx (fun _ _ g => ⟨g.2, .inl (h.ext g.1)⟩) (fun _ _ g => ⟨g.2, .inl (h.ext g.1)⟩)
    by_cases h3 : st = .awaitHelloVerifyRequest
    · subst h3
      exact wp_mono (wp_and hx (hvr_stage m s h)) (fun _ _ g => ⟨g.1.2, g.2⟩) (fun _ _ g => ⟨g.1.2, g.2⟩)
    · refine wp_mono (wp_and hx (wp_and ((step_adds (env := env) st h1 h3).wp s)
        (Rets.wp (C12.step_next (env := env) st) s))) ?_ ?_
      · rintro new s' ⟨⟨_, g1⟩, g2, g3⟩
        exact ⟨g1, .inr ⟨next_not _ _ g3 h3, h.adds g2⟩⟩
      · rintro _ s' ⟨⟨_, g1⟩, g2, _⟩
        exact ⟨g1, .inr ⟨h1, h.adds g2⟩⟩

/-- As long as an auto-sensing client, now of DTLS 1.2, has not taken a HelloVerifyRequest, its transcript begins
with the hybrid ClientHello, the only one in it. -/
theorem hybrid_in_transcript (cfg : Cfg) (random body : Bytes) (seq now : Nat) (cs : List Call) :
    let s := (run C12.role env (C12.startHybrid env cfg random (flat [⟨1, seq, body⟩]) now) cs).2
    Hvr s ∨ Only ⟨1, seq, body⟩ s := by
  intro s
  have := (Saga.stable C12.showRule (C12.roleOk env) (saga (env := env) ⟨1, seq, body⟩)).run
    (C12.startHybrid env cfg random (flat [⟨1, seq, body⟩]) now) cs (fun _ _ => trivial)
    ⟨.inr ⟨nofun, [], nofun, rfl⟩, nofun, nofun⟩
  exact this.stage.imp_right fun h => h.2

/-- A transcript below 16 MiB determines the messages at its beginning. -/
theorem flat_prefix : ∀ (ms ns : List TMsg), flat ms <+: flat ns → (flat ns).length < 2 ^ 24 →
    ms.map (fun m => (m.t, m.body)) <+: ns.map (fun m => (m.t, m.body)) := by
  intro ms
  induction ms with
  | nil => intro ns _ _; exact List.nil_prefix
  | cons m ms ih =>
    intro ns ⟨t, h⟩ hl
    cases ns with
    | nil => simp [flat, TMsg.bytes] at h
    | cons n ns =>
      have hm : flat (m :: ms) = m.bytes ++ flat ms := rfl
      have hn : flat (n :: ns) = n.bytes ++ flat ns := rfl
      have hl' := hl
      rw [← h, hm] at hl
      rw [hn] at hl'
      rw [hm, hn] at h
      simp only [TMsg.bytes, List.length_append, List.length_cons, beBytes_length] at hl hl'
      simp only [TMsg.bytes, List.cons_append, List.cons.injEq, List.append_assoc] at h
      obtain ⟨ht, h⟩ := h
      obtain ⟨h1, h⟩ := List.append_inj h (by simp only [beBytes_length])
      have hlen : m.body.length = n.body.length := by
        have := congrArg ofBe h1
        rwa [ofBe_beBytes, ofBe_beBytes, Nat.mod_eq_of_lt (by omega), Nat.mod_eq_of_lt (by omega)] at this
      obtain ⟨_, h⟩ := List.append_inj h (by simp only [beBytes_length])
      obtain ⟨_, h⟩ := List.append_inj h (by simp only [beBytes_length])
      obtain ⟨_, h⟩ := List.append_inj h (by simp only [beBytes_length])
      obtain ⟨hb, h⟩ := List.append_inj h hlen
      simp only [List.map_cons, ht, hb]
      exact (List.prefix_cons_inj _).mpr (ih ns ⟨t, h⟩ (by omega))

theorem lastOf_prefix {ms ns : List TMsg} {n : TMsg} (h : ms.map (fun m => (m.t, m.body)) <+: (n :: ns).map (fun m => (m.t, m.body)))
    (hn : ∀ x ∈ ns, x.t ≠ 1) (h1 : n.t = 1) (hne : ms ≠ []) : lastOf 1 ms = some n.body := by
  cases ms with
  | nil => exact absurd rfl hne
  | cons m ms =>
    rw [List.map_cons, List.map_cons, List.cons_prefix_cons] at h
    obtain ⟨h0, h⟩ := h
    cases (Prod.mk.injEq _ _ _ _).mp h0 with
    | intro ht hb =>
      unfold lastOf
      rw [lastOf_none]
      · rw [if_pos (ht.trans h1)]; exact congrArg some hb
      · intro x hx
        have : (x.t, x.body) ∈ ns.map (fun m => (m.t, m.body)) := h.subset (List.mem_map.mpr ⟨x, hx, rfl⟩)
        obtain ⟨y, g1, g2⟩ := List.mem_map.mp this
        cases (Prod.mk.injEq _ _ _ _).mp g2 with
        | intro gt _ => exact fun hx1 => hn y g1 (gt.trans hx1)

/-- **C76, the part that holds.** An auto-sensing client has become one of DTLS 1.2, has taken no
HelloVerifyRequest, and has accepted the Finished this server sent. Then the ClientHello the server acted on is the
hybrid ClientHello, byte for byte: nobody on the way has taken DTLS 1.3 out of it. Missing: the case with a
HelloVerifyRequest, where it is wrong (`downgraded`). -/
theorem offer_heard_partial {envS : PEnv} {cfgC cfgS : Cfg} (random body : Bytes) (seq nowC now : Nat)
    (hE : Same env envS) (csC csS : List Call) :
    let c := (run C12.role env (C12.startHybrid env cfgC random (flat [⟨1, seq, body⟩]) nowC) csC).2
    let s := (run S12.role envS (S12.start envS cfgS now) csS).2
    c.eng.transcript.length < 2 ^ 24 → ¬ Hvr c →
    ∀ v, Took (Client.Params env) env false c v → Said (Server.Params envS) envS false s v →
      NoClash env false v c s →
      ∃ h, envS.parseClientHello body = some ([], h) ∧ s.peerRandom = some h.random := by
  intro c s hl hh v ht hs hc
  obtain ⟨ns, hn, htr⟩ := (hybrid_in_transcript (env := env) cfgC random body seq nowC csC).resolve_left hh
  obtain ⟨ms, m, _, _, _, hp, hm, _, _, _, hv, hpre⟩ := ht
  obtain ⟨ms', m', _, hp', hm', hv', hpre'⟩ := hs
  have hb := before hpre
  have hb' := before hpre'
  rw [← hE.verifyData] at hv'
  have heq := (hc m m' _ _ hm hm' hb hb' hv hv').2
  have hl1 : (flat ms).length < 2 ^ 24 := prefix_length hb hl
  have hmap := flat_inj ms ms' heq hl1
  have hne : ms ≠ [] := by
    rintro rfl
    obtain ⟨_, _, _, h, _⟩ := hp.hello
    cases h
  rw [show c.eng.transcript = _ from htr] at hb hl
  have hlast := lastOf_prefix (flat_prefix ms _ hb hl) hn rfl hne
  obtain ⟨body', h, h1, h2, h3⟩ := hp'.heard
  rw [← lastOf_map 1 _ _ hmap, hlast] at h1
  cases h1
  exact ⟨h, h2, h3⟩

end

/-! ## With a HelloVerifyRequest

The first ClientHello and the HelloVerifyRequest are not in the transcript (RFC 6347, 4.2.1), and the cookie covers
the client's random only (`src/dtls12/server.rs:365-389`), so that nothing ties the second ClientHello, which the
client sends as one of DTLS 1.2, to the first. RFC 8446, 4.1.3 has a mark in the server's random for this; the code
neither sets nor looks for it. -/

section
open Verif.Dtls
open Verif.E12 (Call Ret ApiRes Output toApi outputs)

/-- DTLS 1.2 with certificates. -/
def cert (cookie : Bool) : E12.PEnv := { MsgDemo.cert12 with useCookie := cookie }

/-- Both versions, certificates, group 29, cookies in DTLS 1.2 if `cookie`. Messages are those of the code. -/
def both (cookie : Bool) : Env where
  lim := { E13.Demo.cfg with mtu := 300 }
  psk := false
  suites12 := [0xC02B]
  suites13 := [0x1301]
  groups := [29]
  isPsk s := s == 0xC0A8
  e12 _ := cert cookie
  e13 := { MsgDemo.full13 with useCookie := false }
  back _ := cert cookie
  hyb12 := cert cookie
  hyb13 := { MsgDemo.full13 with useCookie := false }
  random := List.replicate 32 7
  kxTick := 1
  kxStart _ := some [1]

/-- Poll until a timeout comes out. -/
def drain (env : Env) : Nat → Dtls → List Output × List Bytes × Dtls
  | 0, d => ([], [], d)
  | fuel + 1, d =>
    match call env d (.api (.poll 2000)) with
    | (.out (.eng (.timeout t)), d') => ([.eng (.timeout t)], [], d')
    | (.out o, d') =>
      let (os, ps, d'') := drain env fuel d'
      (o :: os, (match o with | .eng (.packet p) => p :: ps | _ => ps), d'')
    | (_, d') => ([], [], d')

/-- Client and server, what they have put out, and what calls with datagrams returned. -/
structure Two where
  client : Dtls
  server : Dtls
  cOut : List Output := []
  sOut : List Output := []
  rets : List Ret := []

/-- The client talks, then the server. `net` is what the network makes of the client's datagrams. -/
def round (env : Env) (net : Bytes → Bytes) (t : Two) : Two :=
  let (o1, ps, c) := drain env 40 t.client
  let (r1, s) := run env t.server (ps.map fun p => .api (.packet (net p)))
  let (o2, qs, s) := drain env 40 s
  let (r2, c) := run env c (qs.map fun p => .api (.packet p))
  { client := c, server := s, cOut := t.cOut ++ o1, sOut := t.sOut ++ o2, rets := t.rets ++ r1 ++ r2 }

/-- An auto-sensing client and this server, so many rounds. -/
def rounds (env : Env) (server : Dtls) (net : Bytes → Bytes) : Nat → Two
  | 0 => { client := (call env (call env (newAuto env 0) (.setActive true)).2 (.api (.timeout 0))).2
           server := (call env server (.api (.timeout 0))).2 }
  | n + 1 => round env net (rounds env server net n)

/-- The attacker: in the first datagram, byte 77, which is the second one of the version 0xFEFC offered, becomes
0xFD. All other datagrams of the client, and all of the server, pass as they are. -/
def tamper (p : Bytes) : Bytes :=
  if some p = ((both true).hybrid.map (·.wire)) then p.set 77 0xFD else p

/-- Left alone, two auto-sensing endpoints connect with DTLS 1.3. -/
theorem untouched :
    let t := rounds (both true) (newAuto (both true) 0) id 4
    protocolVersion t.client = some .dtls13 ∧ protocolVersion t.server = some .dtls13 ∧
    t.cOut.count .connected = 1 ∧ t.sOut.count .connected = 1 := by decide +kernel

/-- **C76 fails.** With that one byte changed, both connect, with DTLS 1.2, and no call reports anything. -/
theorem downgraded :
    let t := rounds (both true) (newAuto (both true) 0) tamper 4
    ((both true).hybrid.map fun h => ((h.wire.drop 71).take 9)) = some [0, 0x2B, 0, 5, 4, 0xFE, 0xFC, 0xFE, 0xFD] ∧
    protocolVersion t.client = some .dtls12 ∧ protocolVersion t.server = some .dtls12 ∧
    t.cOut.count .connected = 1 ∧ t.sOut.count .connected = 1 ∧ (∀ r ∈ t.rets, r = .res .ok) := by decide +kernel

/-- Without cookies the client notices. -/
theorem noticed :
    let t := rounds (both false) (newAuto (both false) 0) tamper 4
    protocolVersion t.client = some .dtls12 ∧ t.cOut.count .connected = 0 ∧
    (t.rets.filter (· ≠ .res .ok)) ≠ [] := by decide +kernel

/-- Whether a HelloVerifyRequest was taken. -/
def sawHvr : Dtls → Option Bool
  | some (.client12 _ s) => some (s.eng.log.any fun e => match e with | .consumed _ 3 _ => true | _ => false)
  | _ => none

/-- A case for `offer_heard_partial`: a server of DTLS 1.2 without cookies; both connect (that they then have a
Finished in common is `Agree12.client_finished` and `server_finished`). -/
theorem old_server :
    let t := rounds (both false) (new12 (both false) 0) id 4
    sawHvr t.client = some false ∧ protocolVersion t.server = some .dtls12 ∧
    t.cOut.count .connected = 1 ∧ t.sOut.count .connected = 1 ∧ (∀ r ∈ t.rets, r = .res .ok) := by decide +kernel

end

end Verif.Props.Downgrade

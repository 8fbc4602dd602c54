import Verif.Lemmas.Calm12
import Verif.Lemmas.Start12
import Verif.Lemmas.Role12
/-!
# No step of a DTLS 1.2 session panics, up to its message counters
-/
namespace Verif.E12
open Verif Wire Window Timer Aead M

/-- What is assumed of the configuration: the suites in it are known, and those without PSK have a signature
algorithm. -/
structure Sound12 (env : PEnv) : Prop extends Assumed env.toEnv where
  known : ∀ cs ∈ env.allowed, env.suiteParams cs ≠ none
  sig : ∀ cs ∈ env.allowed, Config.isPsk cs = false → env.suiteSig cs ≠ none

abbrev SFail {St : Type} (T : Ses St → Prop) : Fault → Ses St → Prop := Fail12 Ses.eng T

def Psk (e : Eng) : Prop := ∃ cs, e.suite = some cs ∧ Config.isPsk cs = true

/-- What a session has at a state: the peer's random; a suite; a suite without PSK; with such a suite the peer's
certificates, the own public key; keys; no keys yet; with a PSK suite the answer whether the identity is known; and
a certificate of its own. -/
structure Want where
  peer : Bool := false
  suite : Bool := false
  plain : Bool := false
  certs : Bool := false
  kx : Bool := false
  keys : Bool := false
  fresh : Bool := false
  valid : Bool := false
  cert : Bool := false

def Want.le (a b : Want) : Bool :=
  (!a.peer || b.peer) && (!a.suite || b.suite) && (!a.plain || b.plain) && (!a.certs || b.certs) && (!a.kx || b.kx) &&
  (!a.keys || b.keys) && (!a.fresh || b.fresh) && (!a.valid || b.valid) && (!a.cert || b.cert)

structure Have {St : Type} (env : PEnv) (w : Want) (s : Ses St) : Prop where
  inv : EInv env.toEnv s.eng
  random : s.random ≠ none
  cv : s.certificateVerify = true → env.auth ≠ .psk
  peer : w.peer = true → s.peerRandom ≠ none
  suite : w.suite = true → ∃ cs, s.eng.suite = some cs ∧ cs ∈ env.allowed ∧ env.compatible cs = true
  plain : w.plain = true → ¬ Psk s.eng
  certs : w.certs = true → Psk s.eng ∨ s.peerCerts ≠ []
  kx : w.kx = true → Psk s.eng ∨ s.kxPub ≠ none
  keys : w.keys = true → s.eng.keys ≠ none
  fresh : w.fresh = true → s.eng.keys = none
  valid : w.valid = true → ¬ Psk s.eng ∨ s.pskValid ≠ none
  cert : w.cert = true → env.auth ≠ .psk

section
variable {St : Type} {env : PEnv} {w w' : Want} {α : Type} {s : Ses St} {T : Ses St → Prop}

theorem Have.mono (h : Have env w s) (hw : w'.le w = true) : Have env w' s := by
  simp only [Want.le, Bool.and_eq_true, Bool.or_eq_true, Bool.not_eq_true'] at hw
  obtain ⟨⟨⟨⟨⟨⟨⟨⟨h1, h2⟩, h3⟩, h4⟩, h5⟩, h6⟩, h7⟩, h8⟩, h9⟩ := hw
  have imp : ∀ {a b : Bool}, a = false ∨ b = true → a = true → b = true := by
    intro a b h ha; rcases h with h | h
    · rw [h] at ha; cases ha
    · exact h
  exact ⟨h.inv, h.random, h.cv, fun x => h.peer (imp h1 x), fun x => h.suite (imp h2 x), fun x => h.plain (imp h3 x),
    fun x => h.certs (imp h4 x), fun x => h.kx (imp h5 x), fun x => h.keys (imp h6 x), fun x => h.fresh (imp h7 x),
    fun x => h.valid (imp h8 x), fun x => h.cert (imp h9 x)⟩

theorem Keep.psk {e e' : Eng} (h : Keep e e') : Psk e' ↔ Psk e := by unfold Psk; rw [h.suite]

theorem Have.eng (h : Have env w s) {e : Eng} (g : EInv env.toEnv e ∧ Keep s.eng e) : Have env w { s with eng := e } := by
  obtain ⟨g1, g2⟩ := g
  have hp : Psk e ↔ Psk s.eng := g2.psk
  refine ⟨g1, h.random, h.cv, h.peer, ?_, ?_, ?_, ?_, ?_, ?_, ?_, h.cert⟩
  · intro x; show ∃ cs, e.suite = some cs ∧ _; rw [g2.suite]; exact h.suite x
  · intro x; show ¬ Psk e; rw [hp]; exact h.plain x
  · intro x; show Psk e ∨ _; rw [hp]; exact h.certs x
  · intro x; show Psk e ∨ _; rw [hp]; exact h.kx x
  · intro x; show e.keys ≠ none; rw [g2.keys]; exact h.keys x
  · intro x; show e.keys = none; rw [g2.keys]; exact h.fresh x
  · intro x; show ¬ Psk e ∨ _; rw [hp]; exact h.valid x

theorem Have.core (a : Sound12 env) (h : Have env w s) {e : Eng} (g : Core env.toEnv (fun _ => True) s.eng e) :
    Have env w { s with eng := e } := h.eng (h.inv.core a.toAssumed g)

theorem Have.noPsk (a : Sound12 env) {cs : Nat} (h1 : cs ∈ env.allowed) (h2 : env.compatible cs = true)
    (h3 : Config.isPsk cs = false) : env.auth ≠ .psk := by
  intro h
  have := a.sig cs h1 h3
  unfold PEnv.compatible at h2
  rw [h] at h2
  cases hs : env.suiteSig cs with
  | none => exact this hs
  | some x => rw [hs] at h2; cases h2

theorem Have.auth (a : Sound12 env) (h : Have env w s) (h1 : w.suite = true) (h2 : w.plain = true) : env.auth ≠ .psk := by
  obtain ⟨cs, g1, g2, g3⟩ := h.suite h1
  refine Have.noPsk a g2 g3 ?_
  cases hp : Config.isPsk cs with
  | false => rfl
  | true => exact absurd ⟨cs, g1, hp⟩ (h.plain h2)

theorem keySig_some (h : env.auth ≠ .psk) : ∃ x, env.keySig = some x := by
  unfold PEnv.keySig; split
  · exact ⟨_, rfl⟩
  · rename_i g; exact absurd g h

theorem keyHash_some (h : env.auth ≠ .psk) : ∃ x, env.keyHash = some x := by
  unfold PEnv.keyHash; split
  · exact ⟨_, rfl⟩
  · rename_i g; exact absurd g h

theorem wp_some {o : Option α} {Q : α → Ses St → Prop} {F : Fault → Ses St → Prop} (h : o ≠ none) (hq : ∀ a, o = some a → Q a s) :
    wp (orPanic o) s Q F := by
  cases o with
  | none => exact absurd rfl h
  | some x => exact hq x rfl

theorem wp_eng {m : E α} {Q : α → Ses St → Prop} {G : α → Eng → Prop} {H : Eng → Prop} (h : wp m s.eng G (EFail H))
    (hq : ∀ a e, G a e → Q a { s with eng := e }) (ht : ∀ e, H e → T { s with eng := e }) : wp (onEng m) s Q (SFail T) := by
  rw [wp_onEng]
  refine wp_mono h (fun a e g => hq a e g) fun f e g => ?_
  cases f with
  | transient => exact ht e g
  | fatal _ => trivial
  | panic => exact g
  | diverge => trivial

/-- An engine method that keeps suite and keys. -/
theorem Have.on (h : Have env w s) {m : E α} {Q : α → Ses St → Prop}
    (hm : wp m s.eng (fun _ e => EInv env.toEnv e ∧ Keep s.eng e) (EFail fun e => EInv env.toEnv e ∧ Keep s.eng e))
    (hq : ∀ a e, Have env w { s with eng := e } → e.suite = s.eng.suite → Q a { s with eng := e })
    (ht : ∀ e, Have env w { s with eng := e } → T { s with eng := e }) : wp (onEng m) s Q (SFail T) :=
  wp_eng hm (fun a e g => hq a e (h.eng g) g.2.suite) (fun e g => ht e (h.eng g))

theorem Have.take (a : Sound12 env) (h : Have env w s) {t : UInt8} (hk : t ∈ kinds) {Q : Option Body → Ses St → Prop}
    (hn : ∀ e, Have env w { s with eng := e } → Q none { s with eng := e })
    (hq : ∀ x e, x.kind = some t → Have env w { s with eng := e } → e.suite = s.eng.suite → Q (some x) { s with eng := e })
    (ht : ∀ e, Have env w { s with eng := e } → T { s with eng := e }) :
    wp (onEng (nextHandshake env.toEnv t)) s Q (SFail T) := by
  refine wp_eng (h.inv.taken a.toAssumed t hk) ?_ (fun e g => ht e (h.eng g))
  rintro m e ⟨g1, g2⟩
  cases m with
  | none => exact hn e (h.eng g1)
  | some x => exact hq x e (g2 x rfl) (h.eng g1) g1.2.suite

/-- A message is written; the transient failure does not happen, but it would not harm. -/
theorem Have.write (a : Sound12 env) (h : Have env w s) {t : UInt8} (b : Bytes) (hk : msgEpoch t = 0 ∨ w.keys = true)
    {Q : Unit → Ses St → Prop} (hq : ∀ e, Have env w { s with eng := e } → e.suite = s.eng.suite → Q () { s with eng := e })
    (ht : ∀ e, Have env w { s with eng := e } → T { s with eng := e }) :
    wp (onEng (createHandshake env.toEnv t b)) s Q (SFail T) := by
  refine h.on (h.inv.handshake a.toAssumed t b ?_) (fun _ e g1 g2 => hq e g1 g2) ht
  intro h1
  rcases hk with h2 | h2
  · omega
  · exact h.keys h2

theorem Have.record (a : Sound12 env) (h : Have env w s) (c : UInt8) (n : Nat) (sv : Bool) (b : Bytes) (hk : n = 0 ∨ w.keys = true)
    {Q : Unit → Ses St → Prop} (hq : ∀ e, Have env w { s with eng := e } → e.suite = s.eng.suite → Q () { s with eng := e })
    (ht : ∀ e, Have env w { s with eng := e } → T { s with eng := e }) :
    wp (onEng (createRecord env.toEnv c n sv false b)) s Q (SFail T) := by
  refine h.on (h.inv.record a.toAssumed c n sv false b ?_) (fun _ e g1 g2 => hq e g1 g2) ht
  intro h1
  rcases hk with h2 | h2
  · omega
  · exact h.keys h2

theorem Have.verify (_h : Have env w s) (c : Bool) {Q : Bytes → Ses St → Prop} (hq : ∀ v, Q v s) :
    wp (onEng (generateVerifyData env.toEnv c)) s Q (SFail T) := by
  rw [wp_onEng]
  have key : (∃ v, generateVerifyData env.toEnv c s.eng = (.ok v, s.eng)) ∨
      ∃ x, generateVerifyData env.toEnv c s.eng = (.fail (.fatal x), s.eng) := by
    unfold generateVerifyData
    repeat' split
    all_goals first | exact .inl ⟨_, rfl⟩ | exact .inr ⟨_, rfl⟩
  rcases key with ⟨v, g⟩ | ⟨x, g⟩
  · unfold wp; rw [g]; exact hq v
  · unfold wp; rw [g]; trivial

theorem Have.pick (a : Sound12 env) (h : Have env w s) (hf : w.fresh = true) {cs : Nat} (h1 : cs ∈ env.allowed)
    (h2 : env.compatible cs = true) {Q : Unit → Ses St → Prop}
    (hq : ∀ e, Have env { suite := true, fresh := true } { s with eng := e } → e.suite = some cs → Q () { s with eng := e }) :
    wp (onEng (setCipherSuite env.toEnv cs)) s Q (SFail T) := by
  rw [wp_onEng]
  have hstep := h.inv.step a.toAssumed (.suite s.eng cs (h.fresh hf))
  have h3 := a.known cs h1
  unfold setCipherSuite at hstep ⊢
  unfold wp
  cases hp : env.suiteParams cs with
  | none => exact absurd hp h3
  | some em =>
    simp only [hp] at hstep ⊢
    refine hq _ ⟨hstep, h.random, h.cv, nofun, fun _ => ⟨cs, rfl, h1, h2⟩, nofun, nofun, nofun, nofun, fun _ => h.fresh hf,
      nofun, nofun⟩ rfl

theorem Have.derive (a : Sound12 env) (h : Have env w s) (hf : w.fresh = true) {cs : Nat} (hs : s.eng.suite = some cs)
    (x cr sr : Bytes) {Q : Unit → Ses St → Prop}
    (hq : ∀ s' : Ses St, Have env { w with fresh := false, keys := true } s' → s'.peerCerts = s.peerCerts → Q () s') :
    wp (deriveMaster env cs x cr sr) s Q (SFail T) := by
  unfold deriveMaster
  simp only [bind_eq, wp_bind, wp_get, wp_modify]
  refine wp_orFatal_of (fun p _ => ?_) trivial
  refine wp_orFatal_of (fun m _ => ?_) trivial
  refine wp_orFatal_of (fun k hk => ?_) trivial
  have h1 := h.inv.core a.toAssumed (.master s.eng m)
  have h2 := h1.1.step a.toAssumed (.keys { s.eng with master := some m } k (h.fresh hf) ⟨cs, m, cr, sr, hs, hk⟩)
  exact hq _ ⟨h2, h.random, h.cv, h.peer, h.suite, h.plain, h.certs, h.kx, fun _ => nofun, nofun, h.valid, h.cert⟩ rfl

theorem Have.tick (a : Sound12 env) (h : Have env w s) : Have env w { s with eng := { s.eng with tick := s.eng.tick + 1 } } :=
  h.core a (.tick s.eng)

@[simp] theorem wp_tick (Q : Nat → Ses St → Prop) (F) :
    wp drawTick s Q F = Q s.eng.tick { s with eng := { s.eng with tick := s.eng.tick + 1 } } := rfl

theorem Have.announce (a : Sound12 env) (h : Have env w s) (hs : w.suite = true) (app : St) (f g : Ses St → Option Bytes)
    {Q : St → Ses St → Prop} (hq : ∀ s', Have env w s' → Q app s') : wp (announceConnected env app f g) s Q (SFail T) := by
  unfold announceConnected
  simp only [bind_eq, wp_bind, wp_get, wp_modify, wp_onEng', pure_eq]
  have h1 : ∀ ev, Have env w { s with eng := flightStop s.eng, events := ev } := fun ev => by
    have := h.core a (.flightStop s.eng)
    exact ⟨this.inv, this.random, this.cv, this.peer, this.suite, this.plain, this.certs, this.kx, this.keys, this.fresh,
      this.valid, this.cert⟩
  have last : ∀ ev, Q app { s with eng := releaseAppData (flightStop s.eng), events := ev } := fun ev =>
    hq _ ((h1 ev).core a (.release _))
  split
  · exact last _
  · simp only [wp_bind]
    obtain ⟨cs, g1, _⟩ := h.suite hs
    refine wp_some (by show s.eng.suite ≠ none; rw [g1]; nofun) (fun x _ => ?_)
    split
    · split
      · exact last _
      · exact last _
    · exact last _

theorem Have.changeCipherSpec (a : Sound12 env) (h : Have env w s) (hk : w.keys = true) (self next : St)
    {Q : St → Ses St → Prop} (h1 : ∀ s', Have env w s' → Q self s') (h2 : ∀ s', Have env w s' → Q next s')
    (ht : ∀ s', Have env w s' → T s') : wp (awaitChangeCipherSpec env self next) s Q (SFail T) := by
  unfold awaitChangeCipherSpec
  simp only [bind_eq, wp_bind, pure_eq]
  refine h.on (h.inv.ccs a.toAssumed) (fun got e g _ => ?_) (fun e g => ht _ g)
  split
  · simp only [wp_bind, wp_onEng']
    have g1 := g.core a (.dropCcs e)
    refine g1.on (g1.inv.enable a.toAssumed (g1.keys hk)) (fun _ e g _ => h2 _ g) (fun e g => ht _ g)
  · exact h1 _ g

theorem Have.drain (a : Sound12 env) (h : Have env w s) (hk : w.keys = true) (l : List Bytes)
    {Q : Unit → Ses St → Prop} (h1 : ∀ s', Have env w s' → Q () s') (ht : ∀ s', Have env w s' → T s') :
    wp (drainLoop env l) s Q (SFail T) := by
  induction l generalizing s with
  | nil => exact h1 _ h
  | cons d l ih =>
    unfold drainLoop
    simp only [bind_eq, wp_bind]
    exact h.record a ctAppData 1 false d (.inr hk) (fun e g _ => ih g) (fun e g => ht _ g)

theorem Have.app (a : Sound12 env) (h : Have env w s) (hk : w.keys = true) (self closed : St)
    {Q : St → Ses St → Prop} (h1 : ∀ s', Have env w s' → Q self s') (h2 : ∀ s', Have env w s' → Q closed s')
    (ht : ∀ s', Have env w s' → T s') : wp (awaitApplicationData env self closed) s Q (SFail T) := by
  unfold awaitApplicationData
  simp only [bind_eq, wp_bind, wp_get, pure_eq]
  split
  · simp only [wp_bind, wp_onEng']
    unfold sendCloseNotify
    exact (h.core a (.discard s.eng)).record a ctAlert 1 false [1, 0] (.inr hk) (fun e g _ => h2 _ g) (fun e g => ht _ g)
  · unfold drainQueued
    simp only [bind_eq, wp_bind, wp_get, wp_set]
    have : Have env w { s with queued := [] } := ⟨h.inv, h.random, h.cv, h.peer, h.suite, h.plain, h.certs, h.kx, h.keys, h.fresh,
      h.valid, h.cert⟩
    exact this.drain a hk _ (fun s' g => h1 _ g) ht

end

theorem createRecord_loud (env : Env) (c : UInt8) (n : Nat) (sv fo : Bool) (b : Bytes) (e e' : Eng) :
    createRecord env c n sv fo b e ≠ (.fail .transient, e') := by
  intro h
  have h := congrArg Prod.fst h
  revert h
  unfold createRecord sealRecord
  dsimp only
  repeat' split
  all_goals exact nofun

/-! ## The client -/

namespace C12

/-- What the client has at a state. -/
def want : CSt → Want
  | .sendClientHello => { fresh := true }
  | .awaitHelloVerifyRequest => { fresh := true }
  | .awaitServerHello => { fresh := true }
  | .awaitCertificate => { peer := true, suite := true, plain := true, fresh := true }
  | .awaitServerKeyExchange => { peer := true, suite := true, certs := true, fresh := true }
  | .awaitCertificateRequest => { suite := true, plain := true, kx := true, fresh := true }
  | .awaitServerHelloDone => { suite := true, kx := true, fresh := true }
  | .sendCertificate => { suite := true, kx := true, cert := true, fresh := true }
  | .sendClientKeyExchange => { suite := true, kx := true, fresh := true }
  | .sendCertificateVerify => { suite := true, cert := true, fresh := true }
  | .sendChangeCipherSpec => { suite := true, fresh := true }
  | .sendFinished => { suite := true, keys := true }
  | .awaitChangeCipherSpec => { suite := true, keys := true }
  | .awaitNewSessionTicket => { suite := true, keys := true }
  | .awaitFinished => { suite := true, keys := true }
  | .awaitApplicationData => { suite := true, keys := true }
  | .closed => {}

section
variable {env : PEnv} {w : Want} {s : Ses CSt} {T : Ses CSt → Prop}

theorem serverExtensions_have (h : Have env w s) (l : List (Nat × Bytes)) (b : Bool) {Q : Bool → Ses CSt → Prop}
    (hq : ∀ x s', Have env w s' → s'.eng = s.eng → Q x s') (ht : ∀ s', Have env w s' → T s') :
    wp (serverExtensions env l b) s Q (SFail T) := by
  induction l generalizing s b with
  | nil => exact hq _ _ h rfl
  | cons td l ih =>
    obtain ⟨t, d⟩ := td
    unfold serverExtensions
    split
    · simp only [bind_eq, wp_bind]
      refine wp_orTransient_of (fun ps _ => ?_) (ht _ h)
      split
      · exact ih h _ hq
      · simp only [wp_bind, wp_modify]
        refine ih ?_ _ hq
        exact ⟨h.inv, h.random, h.cv, h.peer, h.suite, h.plain, h.certs, h.kx, h.keys, h.fresh, h.valid, h.cert⟩
    · exact ih h _ hq

theorem processEcdh_have (a : Sound12 env) (h : Have env w s) (group : Nat) (pub : Bytes) {Q : Unit → Ses CSt → Prop}
    (hq : ∀ s', Have env { w with kx := true } s' → Q () s') : wp (processEcdh env group pub) s Q (SFail T) := by
  unfold processEcdh
  simp only [bind_eq, wp_bind, wp_tick, wp_modify]
  refine wp_check_of (fun _ => ?_) trivial
  refine wp_orFatal_of (fun ours _ => ?_) trivial
  refine wp_orFatal_of (fun pms _ => ?_) trivial
  have h := h.tick a
  exact hq _ ⟨h.inv, h.random, h.cv, h.peer, h.suite, h.plain, h.certs, fun _ => .inr nofun, h.keys, h.fresh, h.valid, h.cert⟩

theorem serverKeyExchange_have (a : Sound12 env) (h : Have env (want .awaitServerKeyExchange) s) :
    wp (awaitServerKeyExchange env) s (fun st' s' => Have env (want st') s')
      (SFail fun s' => Have env (want .awaitServerKeyExchange) s') := by
  unfold awaitServerKeyExchange
  simp only [bind_eq, wp_bind, wp_get]
  refine wp_orFatal_of (fun cs hcs => ?_) trivial
  split
  · rename_i hp
    have hpsk : ∀ {e : Eng}, e.suite = s.eng.suite → Psk e := fun he => ⟨cs, he.trans hcs, hp⟩
    unfold awaitServerKeyExchangePsk
    simp only [bind_eq, wp_bind, wp_get, pure_eq]
    have next : ∀ {s' : Ses CSt}, Have env (want .awaitServerKeyExchange) s' → s'.eng.suite = s.eng.suite →
        Have env (want .awaitServerHelloDone) s' := fun h he =>
      ⟨h.inv, h.random, h.cv, nofun, h.suite, nofun, nofun, fun _ => .inl (hpsk he), nofun, h.fresh, nofun, nofun⟩
    split
    · exact next h rfl
    · simp only [wp_bind]
      refine h.take a (by decide) (fun e g => g) (fun x e hx g he => ?_) (fun e g => g)
      cases x <;> try (exact absurd hx (by simp only [Body.kind]; decide))
      rename_i k
      cases k with
      | psk _ => exact next g he
      | ecdh _ _ _ _ => trivial
  · rename_i hp
    have hpsk : ∀ {e : Eng}, e.suite = s.eng.suite → ¬ Psk e := by
      rintro e he ⟨c, h1, h2⟩
      rw [he, hcs] at h1
      cases h1
      exact hp h2
    unfold awaitServerKeyExchangeEcdhe
    simp only [bind_eq, wp_bind, pure_eq]
    refine h.take a (by decide) (fun e g => g) (fun x e hx g he => ?_) (fun e g => g)
    cases x <;> try (exact absurd hx (by simp only [Body.kind]; decide))
    rename_i k
    cases k with
    | psk _ => trivial
    | ecdh curve group pub sg =>
      cases sg with
      | none => trivial
      | some as =>
        obtain ⟨alg, sig⟩ := as
        simp only [wp_bind, wp_get]
        refine wp_some h.random (fun cr _ => ?_)
        refine wp_some (h.peer rfl) (fun sr _ => ?_)
        refine wp_check_of (fun _ => ?_) trivial
        refine wp_check_of (fun _ => ?_) trivial
        have hc : s.peerCerts ≠ [] := (h.certs rfl).resolve_left (hpsk rfl)
        refine wp_some (by show s.peerCerts.head? ≠ none; intro hn; exact hc (List.head?_eq_none_iff.mp hn)) (fun c _ => ?_)
        refine wp_check_of (fun _ => ?_) trivial
        have g' : Have env { want .awaitServerKeyExchange with plain := true } { s with eng := e } :=
          ⟨g.inv, g.random, g.cv, g.peer, g.suite, fun _ => hpsk he, g.certs, g.kx, g.keys, g.fresh, g.valid, g.cert⟩
        exact processEcdh_have a g' group pub fun s' g => g.mono rfl

theorem clientKeyExchangeBody_have (h : Have env w s) (hs : w.kx = true) {Q : Bytes → Ses CSt → Prop}
    (hq : ∀ b s', Have env w s' → Q b s') : wp (clientKeyExchangeBody env) s Q (SFail T) := by
  unfold clientKeyExchangeBody
  simp only [bind_eq, wp_bind, wp_get]
  refine wp_orFatal_of (fun cs hcs => ?_) trivial
  split
  · simp only [wp_bind, wp_modify, pure_eq]
    refine wp_orFatal_of (fun _ _ => ?_) trivial
    refine wp_orFatal_of (fun _ _ => ?_) trivial
    refine wp_orFatal_of (fun _ _ => ?_) trivial
    exact hq _ _ ⟨h.inv, h.random, h.cv, h.peer, h.suite, h.plain, h.certs, h.kx, h.keys, h.fresh, h.valid, h.cert⟩
  · rename_i hp
    simp only [wp_bind, pure_eq]
    refine wp_some ((h.kx hs).resolve_left ?_) (fun _ _ => hq _ _ h)
    rintro ⟨c, h1, h2⟩
    rw [hcs] at h1
    cases h1
    exact hp h2

theorem step_have (a : Sound12 env) (st : CSt) (h : Have env (want st) s) :
    wp (C12.step env st) s (fun st' s' => Have env (want st') s') (SFail fun s' => Have env (want st) s') := by
  cases st <;> unfold C12.step
  case sendClientHello =>
    unfold sendClientHello
    simp only [bind_eq, wp_bind, wp_get, wp_onEng', pure_eq]
    refine wp_some h.random (fun r _ => ?_)
    refine (h.core a (.flightBegin s.eng)).write a _ (.inl rfl) (fun e g _ => ?_) (fun _ g => g)
    rw [wp_pure]
    split <;> exact g.mono rfl
  case awaitHelloVerifyRequest =>
    unfold awaitHelloVerifyRequest
    simp only [bind_eq, wp_bind, wp_get, pure_eq]
    split
    · exact h.mono rfl
    · simp only [wp_bind]
      refine h.take a (by decide) (fun e g => g) (fun x e hx g he => ?_) (fun e g => g)
      cases x <;> try (exact absurd hx (by simp only [Body.kind]; decide))
      simp only [wp_bind, wp_modify, wp_onEng']
      refine wp_check_of (fun _ => ?_) trivial
      have := g.core a (.resetClient e)
      exact ⟨this.inv, this.random, this.cv, nofun, nofun, nofun, nofun, nofun, nofun, this.fresh, nofun, nofun⟩
  case awaitServerHello =>
    unfold awaitServerHello
    simp only [bind_eq, wp_bind, pure_eq]
    refine h.take a (by decide) (fun e g => g) (fun x e hx g he => ?_) (fun e g => g)
    cases x <;> try (exact absurd hx (by simp only [Body.kind]; decide))
    rename_i sh
    simp only [wp_bind, wp_modify]
    refine wp_check_of (fun _ => ?_) trivial
    refine wp_check_of (fun _ => ?_) trivial
    refine wp_check_of (fun _ => ?_) trivial
    refine wp_check_of (fun h1 => ?_) trivial
    refine wp_check_of (fun h2 => ?_) trivial
    refine g.pick a rfl (List.contains_iff_mem.mp h2) h1 (fun e g hs => ?_)
    refine wp_orFatal_of (fun exts _ => ?_) trivial
    have g' : Have env { peer := true, suite := true, fresh := true }
        { s with eng := e, sessionId := some sh.sessionId, peerRandom := some sh.random } :=
      ⟨g.inv, g.random, g.cv, fun _ => nofun, g.suite, nofun, nofun, nofun, nofun, g.fresh, nofun, nofun⟩
    refine serverExtensions_have g' exts false (fun ems s' g he => ?_) (fun s' g => g.mono rfl)
    refine wp_check_of (fun _ => ?_) trivial
    rw [wp_pure]
    have hs' : s'.eng.suite = some sh.suite := by rw [he]; exact hs
    split
    · rename_i hp
      exact ⟨g.inv, g.random, g.cv, g.peer, g.suite, nofun, fun _ => .inl ⟨_, hs', hp⟩, nofun, nofun, g.fresh, nofun, nofun⟩
    · rename_i hp
      refine ⟨g.inv, g.random, g.cv, g.peer, g.suite, fun _ => ?_, nofun, nofun, nofun, g.fresh, nofun, nofun⟩
      rintro ⟨c, h1, h2⟩
      rw [hs'] at h1
      cases h1
      exact hp h2
  case awaitCertificate =>
    unfold awaitCertificate
    simp only [bind_eq, wp_bind, pure_eq]
    refine h.take a (by decide) (fun e g => g) (fun x e hx g he => ?_) (fun e g => g)
    cases x <;> try (exact absurd hx (by simp only [Body.kind]; decide))
    rename_i certs
    simp only [wp_bind, wp_modify]
    refine wp_check_of (fun hc => ?_) trivial
    refine ⟨g.inv, g.random, g.cv, g.peer, g.suite, nofun, fun _ => .inr ?_, nofun, nofun, g.fresh, nofun, nofun⟩
    intro hn
    rw [(List.append_eq_nil_iff.mp hn).2] at hc
    cases hc
  case awaitServerKeyExchange => exact serverKeyExchange_have a h
  case awaitCertificateRequest =>
    unfold awaitCertificateRequest
    simp only [bind_eq, wp_bind, wp_get, pure_eq]
    split
    · exact h.mono rfl
    · simp only [wp_bind]
      refine h.take a (by decide) (fun e g => g) (fun x e hx g he => ?_) (fun e g => g)
      cases x <;> try (exact absurd hx (by simp only [Body.kind]; decide))
      simp only [wp_bind, wp_modify]
      have hau := h.auth a rfl rfl
      refine wp_some (by obtain ⟨_, hk⟩ := keyHash_some hau; rw [hk]; nofun) (fun _ _ => ?_)
      refine wp_check_of (fun _ => ?_) trivial
      exact ⟨g.inv, g.random, fun _ => hau, nofun, g.suite, nofun, nofun, g.kx, nofun, g.fresh, nofun, nofun⟩
  case awaitServerHelloDone =>
    unfold awaitServerHelloDone
    simp only [bind_eq, wp_bind, pure_eq]
    refine h.take a (by decide) (fun e g => g) (fun x e hx g he => ?_) (fun e g => g)
    cases x <;> try (exact absurd hx (by simp only [Body.kind]; decide))
    simp only [wp_bind, wp_get]
    refine wp_orFatal_of (fun cs hcs => ?_) trivial
    split
    · exact g.mono rfl
    · simp only [wp_bind, wp_modify]
      refine wp_check_of (fun _ => ?_) trivial
      rw [wp_pure]
      split
      · rename_i hcv
        exact ⟨g.inv, g.random, g.cv, nofun, g.suite, nofun, nofun, g.kx, nofun, g.fresh, nofun, fun _ => g.cv hcv⟩
      · exact ⟨g.inv, g.random, g.cv, nofun, g.suite, nofun, nofun, g.kx, nofun, g.fresh, nofun, nofun⟩
  case sendCertificate =>
    unfold sendCertificate
    simp only [bind_eq, wp_bind, wp_onEng', pure_eq]
    refine wp_some (by obtain ⟨_, hk⟩ := keySig_some (h.cert rfl); rw [hk]; nofun) (fun _ _ => ?_)
    exact (h.core a (.flightBegin s.eng)).write a _ (.inl rfl) (fun e g _ => g.mono rfl) (fun _ g => g)
  case sendClientKeyExchange =>
    unfold sendClientKeyExchange
    simp only [bind_eq, wp_bind, wp_get, pure_eq]
    have rest : ∀ {s : Ses CSt}, Have env (want .sendClientKeyExchange) s →
        wp (M.bind (clientKeyExchangeBody env) fun body => M.bind (onEng (createHandshake env.toEnv mtClientKeyExchange body)) fun _ =>
          M.bind M.get fun s => M.bind (orFatal s.eng.suite .invalidState) fun _ =>
          M.bind (M.modify fun s => { s with sessionHash := some s.eng.transcript }) fun _ =>
          M.pure (if s.certificateVerify then .sendCertificateVerify else .sendChangeCipherSpec)) s
          (fun st' s' => Have env (want st') s') (SFail fun s' => Have env (want .sendClientKeyExchange) s') := by
      intro s h
      simp only [wp_bind, wp_get, wp_modify]
      refine clientKeyExchangeBody_have h rfl (fun b s' g => ?_)
      refine g.write a _ (.inl rfl) (fun e g _ => ?_) (fun _ g => g)
      refine wp_orFatal_of (fun _ _ => ?_) trivial
      rw [wp_pure]
      split
      · rename_i hcv
        exact ⟨g.inv, g.random, g.cv, nofun, g.suite, nofun, nofun, nofun, nofun, g.fresh, nofun, fun _ => g.cv hcv⟩
      · exact ⟨g.inv, g.random, g.cv, nofun, g.suite, nofun, nofun, nofun, nofun, g.fresh, nofun, nofun⟩
    split
    · exact rest h
    · rw [wp_bind, wp_onEng']
      exact rest (h.core a (.flightBegin s.eng))
  case sendCertificateVerify =>
    unfold sendCertificateVerify certificateVerifyBody
    simp only [bind_eq, wp_bind, wp_get, wp_tick, pure_eq]
    refine wp_some (by obtain ⟨_, hk⟩ := keyHash_some (h.cert rfl); rw [hk]; nofun) (fun _ _ => ?_)
    refine wp_some (by obtain ⟨_, hk⟩ := keySig_some (h.cert rfl); rw [hk]; nofun) (fun _ _ => ?_)
    refine wp_orFatal_of (fun _ _ => ?_) trivial
    exact (h.tick a).write a _ (.inl rfl) (fun e g _ => g.mono rfl) (fun _ g => g)
  case sendChangeCipherSpec =>
    unfold sendChangeCipherSpec deriveKeys
    simp only [bind_eq, wp_bind, wp_get, pure_eq]
    refine wp_orFatal_of (fun cs hcs => ?_) trivial
    refine wp_orFatal_of (fun _ _ => ?_) trivial
    refine wp_some h.random (fun _ _ => ?_)
    refine wp_orFatal_of (fun _ _ => ?_) trivial
    refine h.derive a rfl hcs _ _ _ (fun s' g _ => ?_)
    rw [wp_onEng]
    refine wp_of (fun _ e he => ?_) (fun f e he => ?_)
    · have := wp_ok (g.inv.record a.toAssumed ctCCS 0 true false [1] (by omega)) he
      exact (g.eng this).mono rfl
    · have := wp_fail (g.inv.record a.toAssumed ctCCS 0 true false [1] (by omega)) he
      cases f with
      | transient => exact absurd he (createRecord_loud _ _ _ _ _ _ _ _)
      | fatal _ => trivial
      | panic => exact this
      | diverge => trivial
  case sendFinished =>
    unfold sendFinished
    simp only [bind_eq, wp_bind, pure_eq]
    refine h.verify true (fun v => ?_)
    exact h.write a _ (.inr rfl) (fun e g _ => g.mono rfl) (fun _ g => g)
  case awaitChangeCipherSpec => exact h.changeCipherSpec a rfl _ _ (fun _ g => g) (fun _ g => g) (fun _ g => g)
  case awaitNewSessionTicket =>
    unfold awaitNewSessionTicket
    simp only [bind_eq, wp_bind, wp_get, pure_eq]
    split
    · exact h.mono rfl
    · simp only [wp_bind]
      refine h.take a (by decide) (fun e g => g) (fun x e hx g he => ?_) (fun e g => g)
      cases x <;> try (exact absurd hx (by simp only [Body.kind]; decide))
      exact g
  case awaitFinished =>
    unfold awaitFinished
    simp only [bind_eq, wp_bind, pure_eq]
    refine h.verify false (fun v => ?_)
    refine h.take a (by decide) (fun e g => g) (fun x e hx g he => ?_) (fun e g => g)
    cases x <;> try (exact absurd hx (by simp only [Body.kind]; decide))
    simp only [wp_bind]
    refine wp_check_of (fun _ => ?_) trivial
    exact g.announce a rfl _ _ _ (fun _ g => g)
  case awaitApplicationData => exact h.app a rfl _ _ (fun _ g => g) (fun _ g => g.mono rfl) (fun _ g => g)
  case closed => exact h

end
end C12

/-! ## The server -/

namespace S12

/-- What the server has at a state. -/
def want : SSt → Want
  | .awaitClientHello => { fresh := true }
  | .sendServerHello => { peer := true, suite := true, fresh := true }
  | .sendCertificate => { peer := true, suite := true, plain := true, fresh := true }
  | .sendServerKeyExchange => { peer := true, suite := true, fresh := true }
  | .sendCertificateRequest => { peer := true, suite := true, fresh := true }
  | .sendServerHelloDone => { peer := true, suite := true, fresh := true }
  | .awaitCertificate => { peer := true, suite := true, fresh := true }
  | .awaitClientKeyExchange => { peer := true, suite := true, fresh := true }
  | .awaitCertificateVerify => { suite := true, keys := true, valid := true }
  | .awaitChangeCipherSpec => { suite := true, keys := true, valid := true }
  | .awaitFinished => { suite := true, keys := true, valid := true }
  | .sendChangeCipherSpec => { suite := true, keys := true }
  | .sendFinished => { suite := true, keys := true }
  | .awaitApplicationData => { suite := true, keys := true }
  | .closed => {}

section
variable {env : PEnv} {w : Want} {s : Ses SSt} {T : Ses SSt → Prop}

theorem clientExtensions_have (h : Have env w s) (l : List (Nat × Bytes)) (x : ChExts) {Q : ChExts → Ses SSt → Prop}
    (hq : ∀ x, Q x s) (ht : ∀ s', Have env w s' → T s') : wp (clientExtensions env l x) s Q (SFail T) := by
  induction l generalizing x with
  | nil => exact hq _
  | cons td l ih =>
    obtain ⟨t, d⟩ := td
    unfold clientExtensions
    split
    · simp only [bind_eq, wp_bind]
      exact wp_orTransient_of (fun ps _ => ih _) (ht _ h)
    split
    · exact ih _
    split
    · simp only [bind_eq, wp_bind]
      exact wp_orTransient_of (fun ps _ => ih _) (ht _ h)
    split
    · simp only [bind_eq, wp_bind]
      exact wp_orTransient_of (fun ps _ => ih _) (ht _ h)
    split
    · exact ih _
    · exact ih _

theorem serverKeyExchangeBody_have (a : Sound12 env) (h : Have env w s) (cr sr : Bytes) (g n : Nat) {Q : Bytes → Ses SSt → Prop}
    (hq : ∀ b s', Have env w s' → Q b s') : wp (serverKeyExchangeBody env cr sr g n) s Q (SFail T) := by
  unfold serverKeyExchangeBody
  simp only [bind_eq, wp_bind, wp_get, wp_tick, wp_modify, pure_eq]
  refine wp_check_of (fun _ => ?_) trivial
  refine wp_orFatal_of (fun _ _ => ?_) trivial
  refine wp_orFatal_of (fun _ _ => ?_) trivial
  have h := h.tick a
  exact hq _ _ ⟨h.inv, h.random, h.cv, h.peer, h.suite, h.plain, h.certs, fun _ => .inr nofun, h.keys, h.fresh, h.valid, h.cert⟩

theorem finishClientKx_have (a : Sound12 env) {cs : Nat} (hs : s.eng.suite = some cs)
    (h : Have env { peer := true, suite := true, fresh := true, valid := true } s) :
    wp (finishClientKx env cs) s (fun st' s' => Have env (want st') s') (SFail T) := by
  unfold finishClientKx
  simp only [bind_eq, wp_bind, wp_get, wp_modify, pure_eq]
  refine wp_some (h.peer rfl) (fun _ _ => ?_)
  refine wp_some h.random (fun _ _ => ?_)
  have h' : Have env { peer := true, suite := true, fresh := true, valid := true }
      { s with sessionHash := some s.eng.transcript } :=
    ⟨h.inv, h.random, h.cv, h.peer, h.suite, nofun, nofun, nofun, nofun, h.fresh, h.valid, nofun⟩
  refine h'.derive a rfl hs _ _ _ (fun s' g _ => ?_)
  rw [wp_pure]
  split <;> exact g.mono rfl

theorem step_have (a : Sound12 env) (st : SSt) (h : Have env (want st) s) :
    wp (S12.step env st) s (fun st' s' => Have env (want st') s') (SFail fun s' => Have env (want st) s') := by
  cases st <;> unfold S12.step
  case awaitClientHello =>
    unfold awaitClientHello
    simp only [bind_eq, wp_bind, pure_eq]
    refine h.take a (by decide) (fun e g => g) (fun x e hx g he => ?_) (fun e g => g)
    cases x <;> try (exact absurd hx (by simp only [Body.kind]; decide))
    rename_i ch
    simp only [wp_bind]
    refine wp_check_of (fun _ => ?_) trivial
    refine wp_check_of (fun _ => ?_) trivial
    split
    · unfold acceptClientHello
      simp only [bind_eq, wp_bind, wp_modify, pure_eq]
      refine wp_orFatal_of (fun cs hcs => ?_) trivial
      unfold selectSuite at hcs
      have hsel := List.find?_some hcs
      rw [Bool.and_eq_true] at hsel
      refine g.pick a rfl (List.contains_iff_mem.mp hsel.1) hsel.2 (fun e g hs => ?_)
      have g' : Have env { peer := true, suite := true, fresh := true } { s with eng := e, peerRandom := some ch.random } :=
        ⟨g.inv, g.random, g.cv, fun _ => nofun, g.suite, nofun, nofun, nofun, nofun, g.fresh, nofun, nofun⟩
      refine clientExtensions_have g' _ _ (fun x => ?_) (fun s' g => g.mono rfl)
      refine wp_check_of (fun _ => ?_) trivial
      exact ⟨g'.inv, g'.random, g'.cv, g'.peer, g'.suite, nofun, nofun, nofun, nofun, g'.fresh, nofun, nofun⟩
    · unfold sendHelloVerify
      simp only [bind_eq, wp_bind, wp_onEng', pure_eq]
      refine wp_orFatal_of (fun _ _ => ?_) trivial
      refine (g.core a (.flightBegin e)).write a _ (.inl rfl) (fun e g _ => ?_) (fun _ g => g)
      exact g.core a (.resetServer e)
  case sendServerHello =>
    unfold sendServerHello
    simp only [bind_eq, wp_bind, wp_get, wp_onEng', pure_eq]
    refine wp_some h.random (fun _ _ => ?_)
    refine wp_orFatal_of (fun cs hcs => ?_) trivial
    refine (h.core a (.flightBegin s.eng)).write a _ (.inl rfl) (fun e g he => ?_) (fun _ g => g)
    rw [wp_pure]
    split
    · exact g.mono rfl
    · rename_i hp
      refine ⟨g.inv, g.random, g.cv, g.peer, g.suite, fun _ => ?_, nofun, nofun, nofun, g.fresh, nofun, nofun⟩
      rintro ⟨c, h1, h2⟩
      have : e.suite = some c := h1
      rw [he] at this
      rw [hcs] at this
      cases this
      exact hp h2
  case sendCertificate =>
    unfold sendCertificate
    simp only [bind_eq, wp_bind, pure_eq]
    refine wp_some (by obtain ⟨_, hk⟩ := keySig_some (h.auth a rfl rfl); rw [hk]; nofun) (fun _ _ => ?_)
    exact h.write a _ (.inl rfl) (fun e g _ => g.mono rfl) (fun _ g => g)
  case sendServerKeyExchange =>
    unfold sendServerKeyExchange
    simp only [bind_eq, wp_bind, wp_get]
    refine wp_orFatal_of (fun cs hcs => ?_) trivial
    split
    · unfold sendServerKeyExchangePsk
      split
      · exact h.mono rfl
      · simp only [bind_eq, wp_bind, pure_eq]
        exact h.write a _ (.inl rfl) (fun e g _ => g.mono rfl) (fun _ g => g)
    · rename_i hp
      have hau : env.auth ≠ .psk := by
        obtain ⟨c, h1, h2, h3⟩ := h.suite rfl
        rw [hcs] at h1
        cases h1
        exact Have.noPsk a h2 h3 (by simpa using hp)
      unfold sendServerKeyExchangeEcdhe
      simp only [bind_eq, wp_bind, wp_get, pure_eq]
      refine wp_orFatal_of (fun _ _ => ?_) trivial
      refine wp_some h.random (fun _ _ => ?_)
      refine wp_orFatal_of (fun _ _ => ?_) trivial
      refine wp_some (by obtain ⟨_, hk⟩ := keySig_some hau; rw [hk]; nofun) (fun _ _ => ?_)
      refine wp_some (by obtain ⟨_, hk⟩ := keyHash_some hau; rw [hk]; nofun) (fun _ _ => ?_)
      refine serverKeyExchangeBody_have a h _ _ _ _ (fun b s' g => ?_)
      refine g.write a _ (.inl rfl) (fun e g _ => ?_) (fun _ g => g)
      rw [wp_pure]
      split <;> exact g.mono rfl
  case sendCertificateRequest =>
    unfold sendCertificateRequest
    simp only [bind_eq, wp_bind, wp_get, pure_eq]
    exact h.write a _ (.inl rfl) (fun e g _ => g.mono rfl) (fun _ g => g)
  case sendServerHelloDone =>
    unfold sendServerHelloDone
    simp only [bind_eq, wp_bind, wp_get, pure_eq]
    refine h.write a _ (.inl rfl) (fun e g _ => ?_) (fun _ g => g)
    refine wp_orFatal_of (fun cs hcs => ?_) trivial
    rw [wp_pure]
    split
    · exact g.mono rfl
    · split <;> exact g.mono rfl
  case awaitCertificate =>
    unfold awaitCertificate
    simp only [bind_eq, wp_bind, pure_eq]
    refine h.take a (by decide) (fun e g => g) (fun x e hx g he => ?_) (fun e g => g)
    cases x <;> try (exact absurd hx (by simp only [Body.kind]; decide))
    simp only
    split
    · exact g
    · simp only [wp_bind, wp_modify]
      exact ⟨g.inv, g.random, g.cv, g.peer, g.suite, nofun, nofun, nofun, nofun, g.fresh, nofun, nofun⟩
  case awaitClientKeyExchange =>
    unfold awaitClientKeyExchange
    simp only [bind_eq, wp_bind, pure_eq]
    refine h.take a (by decide) (fun e g => g) (fun x e hx g he => ?_) (fun e g => g)
    cases x <;> try (exact absurd hx (by simp only [Body.kind]; decide))
    rename_i k
    simp only [wp_bind, wp_get]
    refine wp_orFatal_of (fun cs hcs => ?_) trivial
    split
    · cases k with
      | ecdh _ => trivial
      | psk identity =>
        simp only [wp_bind]
        unfold clientKxPsk
        simp only [bind_eq, wp_bind]
        refine wp_orFatal_of (fun r _ => ?_) trivial
        split
        · simp only [wp_modify]
          exact finishClientKx_have a hcs
            ⟨g.inv, g.random, g.cv, g.peer, g.suite, nofun, nofun, nofun, nofun, g.fresh, fun _ => .inr nofun, nofun⟩
        · simp only [wp_bind, wp_tick, wp_modify]
          have g := g.tick a
          exact finishClientKx_have a hcs
            ⟨g.inv, g.random, g.cv, g.peer, g.suite, nofun, nofun, nofun, nofun, g.fresh, fun _ => .inr nofun, nofun⟩
    · rename_i hp
      cases k with
      | psk _ => trivial
      | ecdh pub =>
        simp only [wp_bind]
        unfold clientKxEcdh
        simp only [bind_eq, wp_bind, wp_get]
        refine wp_orFatal_of (fun ng _ => ?_) trivial
        obtain ⟨n, grp⟩ := ng
        simp only [wp_modify]
        refine wp_orFatal_of (fun _ _ => ?_) trivial
        refine finishClientKx_have a hcs
          ⟨g.inv, g.random, g.cv, g.peer, g.suite, nofun, nofun, nofun, nofun, g.fresh, fun _ => .inl ?_, nofun⟩
        rintro ⟨c, h1, h2⟩
        have h1 : e.suite = some c := h1
        have hcs : e.suite = some cs := hcs
        rw [hcs] at h1
        cases h1
        exact hp h2
  case awaitCertificateVerify =>
    unfold awaitCertificateVerify
    simp only [bind_eq, wp_bind, wp_get, pure_eq]
    refine h.take a (by decide) (fun e g => g) (fun x e hx g he => ?_) (fun e g => g)
    cases x <;> try (exact absurd hx (by simp only [Body.kind]; decide))
    simp only [wp_bind]
    refine wp_orFatal_of (fun _ _ => ?_) trivial
    refine wp_check_of (fun _ => ?_) trivial
    exact g.mono rfl
  case awaitChangeCipherSpec => exact h.changeCipherSpec a rfl _ _ (fun _ g => g) (fun _ g => g) (fun _ g => g)
  case awaitFinished =>
    unfold awaitFinished
    simp only [bind_eq, wp_bind, pure_eq]
    refine h.verify true (fun v => ?_)
    refine h.take a (by decide) (fun e g => g) (fun x e hx g he => ?_) (fun e g => g)
    cases x <;> try (exact absurd hx (by simp only [Body.kind]; decide))
    simp only [wp_bind, wp_get]
    refine wp_check_of (fun _ => ?_) trivial
    split
    · rename_i hb
      exfalso
      rw [Bool.and_eq_true] at hb
      obtain ⟨h1, h2⟩ := hb
      rcases g.valid rfl with hv | hv
      · refine hv ?_
        cases hc : e.suite with
        | none => simp only [hc] at h1; cases h1
        | some c => simp only [hc] at h1; exact ⟨c, hc, h1⟩
      · exact hv (by simpa using h2)
    · simp only [wp_bind]
      refine wp_check_of (fun _ => ?_) trivial
      exact g.mono rfl
  case sendChangeCipherSpec =>
    unfold sendChangeCipherSpec
    simp only [bind_eq, wp_bind, wp_onEng', pure_eq]
    exact (h.core a (.flightBegin s.eng)).record a _ _ _ _ (.inl rfl) (fun e g _ => g) (fun _ g => g)
  case sendFinished =>
    unfold sendFinished
    simp only [bind_eq, wp_bind]
    refine h.verify false (fun v => ?_)
    refine h.write a _ (.inr rfl) (fun e g _ => ?_) (fun _ g => g)
    exact g.announce a rfl _ _ _ (fun _ g => g)
  case awaitApplicationData => exact h.app a rfl _ _ (fun _ g => g) (fun _ g => g.mono rfl) (fun _ g => g)
  case closed => exact h

end
end S12

/-! ## Calls -/

section
variable {R : Role} {env : PEnv}

/-- What a session has at each of its states, and that its steps keep that. -/
structure Plan12 (R : Role) (env : PEnv) where
  want : R.St → Want
  step : ∀ st (s : Ses R.St), Have env (want st) s →
    wp (R.step env st) s (fun st' s' => Have env (want st') s') (SFail fun s' => Have env (want st) s')
  app : (want R.app).keys = true
  closed : want R.closed = {}

theorem step_state (ho : RoleOk R env) (st : R.St) : RFr (R.step env st) := by
  by_cases ha : st = R.app
  · rw [ha, ho.app]; exact app_role _ _
  · exact fun s' => ⟨(ho.fr (role_frame env.toEnv) st ha s').1, (ho.fr (role_frame env.toEnv) st ha s').2.2.1⟩

namespace Plan12
variable (p : Plan12 R env)

abbrev Inv (s : Ses R.St) : Prop := Have env (p.want s.st) s

theorem progress (ho : RoleOk R env) (fuel : Nat) (s : Ses R.St) (h : p.Inv s) :
    wp (E12.progress R env fuel) s (fun _ s' => p.Inv s') (SFail p.Inv) := by
  induction fuel generalizing s with
  | zero => trivial
  | succ n ih =>
    unfold E12.progress
    simp only [bind_eq, wp_bind, wp_get, pure_eq]
    have hst := to_wp (R := fun s' : Ses R.St => s'.eng.isClient = s.eng.isClient ∧ s'.st = s.st) (step_state ho s.st s)
    refine wp_mono (wp_and (p.step s.st s h) hst) ?_ ?_
    · rintro new s' ⟨h1, h2⟩
      split
      · rename_i he
        subst he
        show Have env (p.want s'.st) s'
        rw [h2.2]; exact h1
      · rw [wp_bind, wp_modify]
        refine ih _ ?_
        exact ⟨h1.inv, h1.random, h1.cv, h1.peer, h1.suite, h1.plain, h1.certs, h1.kx, h1.keys, h1.fresh, h1.valid, h1.cert⟩
    · rintro f s' ⟨h1, h2⟩
      cases f with
      | transient => show Have env (p.want s'.st) s'; rw [h2.2]; exact h1
      | fatal _ => trivial
      | panic => exact h1
      | diverge => trivial

theorem packet (a : Sound12 env) (ho : RoleOk R env) (s : Ses R.St) (b : Bytes) (h : p.Inv s) :
    wp (handlePacketM R env b) s (fun _ s' => p.Inv s') (fun f s' => (f = .panic ∧ Repeats s.eng b) ∨ SFail p.Inv f s') := by
  unfold handlePacketM
  rw [bind_eq, wp_bind, wp_onEng]
  refine wp_mono (h.inv.packet a.toAssumed b) ?_ ?_
  · intro _ e g
    exact wp_mono (p.progress ho _ _ (h.eng g)) (fun _ _ h => h) fun _ _ h => .inr h
  · rintro f e (g | g)
    · exact .inl g
    · refine .inr ?_
      cases f with
      | transient => exact h.eng g
      | fatal _ => trivial
      | panic => exact g
      | diverge => trivial

theorem note (s : Ses R.St) (n : Nat) (h : p.Inv s) : p.Inv (noteTime R env n s) := by
  unfold noteTime
  split
  · exact ⟨h.inv, h.random, h.cv, h.peer, h.suite, h.plain, h.certs, h.kx, h.keys, h.fresh, h.valid, h.cert⟩
  · rename_i hr; exact absurd hr h.random

/-- `handle_timeout` after the clock was set. -/
theorem timeout (a : Sound12 env) (ho : RoleOk R env) (s : Ses R.St) (n : Nat) (h : p.Inv (noteTime R env n s)) :
    wp (handleTimeoutM R env n) s (fun _ s' => p.Inv s') (SFail p.Inv) := by
  unfold handleTimeoutM
  simp only [bind_eq, wp_bind, wp_modify]
  exact h.on (h.inv.timeout a.toAssumed n) (fun _ e g _ => p.progress ho _ _ g) (fun e g => g)

theorem send (a : Sound12 env) (s : Ses R.St) (d : Bytes) (h : p.Inv s) :
    wp (sendM R env d) s (fun _ s' => p.Inv s') (SFail p.Inv) := by
  unfold sendM
  simp only [bind_eq, wp_bind, wp_get]
  split
  · trivial
  · split
    · exact ⟨h.inv, h.random, h.cv, h.peer, h.suite, h.plain, h.certs, h.kx, h.keys, h.fresh, h.valid, h.cert⟩
    · rename_i hst
      have hst : s.st = R.app := Classical.not_not.mp hst
      exact h.record a ctAppData 1 false d (.inr (by rw [hst]; exact p.app)) (fun e g _ => g) (fun e g => g)

theorem close (a : Sound12 env) (s : Ses R.St) (h : p.Inv s) :
    wp (closeM R env) s (fun _ s' => p.Inv s') (SFail p.Inv) := by
  have end_ : ∀ {s' : Ses R.St} {w : Want}, Have env w s' → p.Inv { s' with st := R.closed } := by
    intro s' w g
    show Have env (p.want R.closed) _
    rw [p.closed]
    exact ⟨g.inv, g.random, g.cv, nofun, nofun, nofun, nofun, nofun, nofun, nofun, nofun, nofun⟩
  unfold closeM sendCloseNotify
  simp only [bind_eq, wp_bind, wp_get, pure_eq]
  split
  · exact h
  · split
    · simp only [wp_bind, wp_onEng', wp_modify]
      exact end_ (h.core a (.abort s.eng))
    · rename_i hst
      have hst : s.st = R.app := Classical.not_not.mp hst
      rw [wp_bind]
      exact h.record a ctAlert 1 false [1, 0] (.inr (by rw [hst]; exact p.app)) (fun e g _ => end_ g) (fun e g => g)

theorem poll (a : Sound12 env) (s : Ses R.St) (n : Nat) (h : p.Inv s) : p.Inv (pollM R n s).2 := by
  unfold pollM
  split
  · exact ⟨h.inv, h.random, h.cv, h.peer, h.suite, h.plain, h.certs, h.kx, h.keys, h.fresh, h.valid, h.cert⟩
  · exact h.core a (.poll s.eng n s.lastNow)

/-- How a call is answered. -/
theorem answer {m : P R.St Unit} {s : Ses R.St} {Rep : Prop}
    (h : wp m s (fun _ s' => p.Inv s') (fun f s' => (f = .panic ∧ Rep) ∨ SFail p.Inv f s')) :
    (toApi (m s).1 = .panic → Spent (m s).2.eng ∨ Rep) ∧ (toApi (m s).1 = .ok → p.Inv (m s).2) := by
  unfold wp at h
  cases hm : m s with
  | mk r s' =>
    rw [hm] at h
    cases r with
    | ok _ => exact ⟨nofun, fun _ => h⟩
    | fail f =>
      cases f with
      | transient => exact ⟨nofun, fun _ => h.elim (fun g => by cases g.1) id⟩
      | fatal _ => exact ⟨nofun, nofun⟩
      | panic => exact ⟨fun _ => h.elim (fun g => .inr g.2) .inl, nofun⟩
      | diverge => exact ⟨nofun, nofun⟩

/-- One call: it panics only if a counter is spent or a record of a later epoch arrives again, and unless it
reports an error the invariant holds after it. -/
theorem call (a : Sound12 env) (ho : RoleOk R env) (s : Ses R.St) (c : Call) (h : p.Inv s) :
    ((E12.call R env s c).1 = .res .panic → Spent (E12.call R env s c).2.eng ∨ ∃ b, c = .packet b ∧ Repeats s.eng b) ∧
    ((∀ x, (E12.call R env s c).1 = .res x → x = .ok) → p.Inv (E12.call R env s c).2) := by
  have key : ∀ {m : P R.St Unit} {Rep : Prop},
      wp m s (fun _ s' => p.Inv s') (fun f s' => (f = .panic ∧ Rep) ∨ SFail p.Inv f s') →
      (Ret.res (toApi (m s).1) = .res .panic → Spent (m s).2.eng ∨ Rep) ∧
      ((∀ x, Ret.res (toApi (m s).1) = .res x → x = .ok) → p.Inv (m s).2) := by
    intro m Rep hm
    have := p.answer hm
    exact ⟨fun g => this.1 (Ret.res.inj g), fun g => this.2 (g _ rfl)⟩
  have lift : ∀ {m : P R.St Unit}, wp m s (fun _ s' => p.Inv s') (SFail p.Inv) →
      wp m s (fun _ s' => p.Inv s') (fun f s' => (f = .panic ∧ False) ∨ SFail p.Inv f s') := fun hm =>
    wp_mono hm (fun _ _ h => h) fun _ _ h => .inr h
  have off : ∀ {q : Prop}, q ∨ False → q ∨ ∃ b, c = .packet b ∧ Repeats s.eng b := fun g => .inl (g.elim id False.elim)
  cases c with
  | packet b =>
    have := key (p.packet a ho s b h)
    exact ⟨fun g => (this.1 g).imp id fun r => ⟨b, rfl, r⟩, this.2⟩
  | timeout n =>
    have := key (lift (p.timeout a ho s n (p.note s n h)))
    exact ⟨fun g => off (this.1 g), this.2⟩
  | send d =>
    have := key (lift (p.send a s d h))
    exact ⟨fun g => off (this.1 g), this.2⟩
  | close =>
    have := key (lift (p.close a s h))
    exact ⟨fun g => off (this.1 g), this.2⟩
  | poll n => exact ⟨nofun, fun _ => p.poll a s n h⟩

end Plan12

def C12.plan (a : Sound12 env) : Plan12 C12.role env := ⟨C12.want, fun st _ h => C12.step_have a st h, rfl, rfl⟩
def S12.plan (a : Sound12 env) : Plan12 S12.role env := ⟨S12.want, fun st _ h => S12.step_have a st h, rfl, rfl⟩

theorem Start.roleOk12 {cfg : Cfg} {s0 : Ses R.St} (h : Start env cfg R s0) : RoleOk R env := by
  cases h
  · exact C12.roleOk env
  · exact C12.roleOk env
  · exact S12.roleOk env

/-- Once the clock was set the invariant holds at the start. -/
theorem Start.plan12 {cfg : Cfg} {s0 : Ses R.St} (h : Start env cfg R s0) (a : Sound12 env) :
    ∃ p : Plan12 R env, ∀ n, p.Inv (noteTime R env n s0) := by
  have hx : SaneInv env.toEnv s0.eng := h.saneInv a.sane []
  have hr := h.rx0
  cases h with
  | client now =>
    refine ⟨C12.plan a, fun n => ?_⟩
    have hi := (EInv.mk hx hr).core a.toAssumed (.tick _)
    exact ⟨hi.1, nofun, nofun, nofun, nofun, nofun, nofun, nofun, nofun, fun _ => rfl, nofun, nofun⟩
  | hybrid random fragment now =>
    refine ⟨C12.plan a, fun n => ?_⟩
    exact ⟨⟨hx, hr⟩, nofun, nofun, nofun, nofun, nofun, nofun, nofun, nofun, fun _ => rfl, nofun, nofun⟩
  | server now =>
    refine ⟨S12.plan a, fun n => ?_⟩
    have hi := (EInv.mk hx hr).core a.toAssumed (.tick _)
    exact ⟨hi.1, nofun, nofun, nofun, nofun, nofun, nofun, nofun, nofun, fun _ => rfl, nofun, nofun⟩

end

end Verif.E12

import Verif.Lemmas.Adds12
import Verif.Props.ShakeServer12
import Verif.Props.Demo12
/-!
# Where the DTLS 1.2 master secret is from (C73)

The master secret of a session past its key derivation is the extended master secret of a premaster
secret and a session hash. The premaster secret is the one of the key exchange between the share the peer
sent and the session's own, or the one RFC 4279 makes from the pre-shared key; the session hash is over the
transcript up to and including the ClientKeyExchange.
-/
namespace Verif.Props.Master12
open Verif Wire Window Timer Aead M E12

/-! ## Statement -/

/-- A consumed message of type `t`. -/
def isMsg (t : UInt8) : Ev → Bool
  | .consumed _ t' _ => t' == t
  | _ => false

/-- At least `k` messages of type `t` have been consumed. -/
def Times {St : Type} (k : Nat) (t : UInt8) (s : Ses St) : Prop := k ≤ s.eng.log.countP (isMsg t)

/-- RFC 4279, section 2: the length, that many zeros, the length, the pre-shared key. -/
def pskPremaster (psk : Bytes) : Bytes :=
  [UInt8.ofNat (psk.length / 256), UInt8.ofNat psk.length] ++ List.replicate psk.length 0 ++
    [UInt8.ofNat (psk.length / 256), UInt8.ofNat psk.length] ++ psk

/-- The transcript up to and including a ClientKeyExchange with this body, which it still begins with. -/
def UpToKx {St : Type} (s : Ses St) (h body : Bytes) : Prop :=
  (∃ pre seq, h = pre ++ transcriptOf 16 body.length seq body) ∧ h <+: s.eng.transcript

/-- The message stands in what the transcript `t` is of, and `pre` is what is before it. -/
def In (t pre : Bytes) (type : UInt8) (seq : Nat) (body : Bytes) : Prop :=
  pre ++ transcriptOf type body.length seq body <+: t

/-- `z` is what the client's key exchange with own share `ours` makes of the share in a consumed
ServerKeyExchange, in the transcript `t`, that is signed under the server's certificate. -/
def ClientEcdhe (env : PEnv) (s : Ses CSt) (t : Bytes) (cs : Nat) (ours z : Bytes) : Prop :=
  ∃ pre seq body curve group pub alg sig cr sr cert n, .consumed seq 12 body ∈ s.eng.log ∧ In t pre 12 seq body ∧
    env.parseServerKx cs body = some ([], .ecdh curve group pub (some (alg, sig))) ∧
    s.random = some cr ∧ s.peerRandom = some sr ∧ s.peerCerts.head? = some cert ∧
    env.verifySig cert (cr ++ sr ++ [curve] ++ beBytes 2 group ++ [UInt8.ofNat pub.length] ++ pub) alg sig = true ∧
    group ∈ env.providerGroups ∧ env.kxStart n group = some ours ∧ env.kxComplete n group pub = some z

/-- Where a client's premaster secret `z` is from, and the body of the ClientKeyExchange that goes with it.
If more than one ServerKeyExchange was consumed, all but the last were refused. -/
def ClientSource (env : PEnv) (s : Ses CSt) (t : Bytes) (cs : Nat) (body z : Bytes) : Prop :=
  (Config.isPsk cs = true ∧ ∃ identity resolver key, env.pskIdentity = some identity ∧
    env.pskResolver = some resolver ∧ resolver identity = some key ∧ z = pskPremaster key ∧
    body = env.clientPskBody identity) ∨
  (Config.isPsk cs = false ∧ ∃ ours sent, ClientEcdhe env s t cs ours z ∧ body = env.clientKxBody sent ∧
    (sent = ours ∨ Times 2 12 s))

/-- The client's master secret. -/
def ClientMaster (env : PEnv) (s : Ses CSt) : Prop :=
  ∃ cs h body z m, s.eng.suite = some cs ∧ UpToKx s h body ∧ ClientSource env s h cs body z ∧
    env.ems cs z h = some m ∧ s.eng.master = some m

/-- The server has sent a ServerKeyExchange with this group and share, signed over both randoms. It is in the
transcript `t`, after `pre`. -/
def SkeSent (env : PEnv) (s : Ses SSt) (t pre : Bytes) (group : Nat) (share : Bytes) : Prop :=
  ∃ seq cr sr alg n sig, s.peerRandom = some cr ∧ s.random = some sr ∧
    env.sign n (cr ++ sr ++ ([3] ++ beBytes 2 group ++ [UInt8.ofNat share.length] ++ share)) (alg / 256) = some sig ∧
    In t pre 12 seq ([3] ++ beBytes 2 group ++ [UInt8.ofNat share.length] ++ share ++ beBytes 2 alg ++
      beBytes 2 sig.length ++ sig)

/-- An attempt to send a ServerKeyExchange failed: the signature could not be made, or the message is already
in `t`. -/
def SkeFailed (env : PEnv) (t : Bytes) : Prop :=
  (∃ n data hash, env.sign n data hash = none) ∨ ∃ pre seq body, In t pre 12 seq body

/-- The server's key exchange number `n` in `group`, and the share it sent for it. -/
def ServerShare (env : PEnv) (s : Ses SSt) (t : Bytes) (n group : Nat) : Prop :=
  ∃ ours share pre, env.kxStart n group = some ours ∧ SkeSent env s t pre group share ∧
    (share = ours ∨ SkeFailed env pre)

/-- Where a server's premaster secret `z` is from: the consumed ClientKeyExchange with this body. -/
def ServerSource (env : PEnv) (s : Ses SSt) (t : Bytes) (cs : Nat) (body z : Bytes) : Prop :=
  (Config.isPsk cs = true ∧ ∃ identity resolver, env.parseClientKx cs body = some ([], .psk identity) ∧
    env.pskResolver = some resolver ∧
    ((∃ key, resolver identity = some key ∧ z = pskPremaster key) ∨ resolver identity = none ∧ s.pskValid = some false)) ∨
  (Config.isPsk cs = false ∧ ∃ n group pub, env.parseClientKx cs body = some ([], .ecdh pub) ∧
    ServerShare env s t n group ∧ env.kxComplete n group pub = some z)

/-- The server's master secret. -/
def ServerMaster (env : PEnv) (s : Ses SSt) : Prop :=
  ∃ cs h seq body z m, s.eng.suite = some cs ∧ UpToKx s h body ∧ .consumed seq 16 body ∈ s.eng.log ∧
    ServerSource env s h cs body z ∧ env.ems cs z h = some m ∧ s.eng.master = some m

/-! ## Keeping what there is -/

section
variable {St : Type} {s s' : Ses St}

theorem Times.near {k : Nat} {t : UInt8} (h : Times k t s) (hn : Near s s') : Times k t s' := by
  obtain ⟨es, he⟩ := hn.log
  unfold Times at *
  rw [he, List.countP_append]
  omega

theorem Times.of_mem {t : UInt8} {seq : Nat} {body : Bytes} (h : .consumed seq t body ∈ s.eng.log) : Times 1 t s :=
  List.countP_pos_iff.mpr ⟨_, h, by simp [isMsg]⟩

theorem _root_.Verif.E12.Near.prefix (hn : Near s s') : s.eng.transcript <+: s'.eng.transcript := by
  obtain ⟨t, ht⟩ := hn.transcript
  exact ⟨t, ht.symm⟩

theorem UpToKx.near {h body : Bytes} (g : UpToKx s h body) (hn : Near s s') : UpToKx s' h body := by
  obtain ⟨t, ht⟩ := hn.transcript
  exact ⟨g.1, g.2.trans ⟨t, ht.symm⟩⟩

end

theorem wp_orFatal_eq {St α : Type} {s : Ses St} {o : Option α} {e : Error} {Q : α → Ses St → Prop}
    {F : Fault → Ses St → Prop} (h1 : ∀ a, o = some a → Q a s) (h2 : o = none → F (.fatal e) s) :
    wp (orFatal o e) s Q F := by
  rw [wp_orFatal]; split
  · exact h1 _ rfl
  · exact h2 rfl

theorem pskPms_eq (key : Bytes) : pskPms key = pskPremaster key := by
  have h : ∀ n, beBytes 2 n = [UInt8.ofNat (n / 256), UInt8.ofNat n] := by
    intro n
    simp [beBytes]
  unfold pskPms pskPremaster
  rw [h]

namespace Client
variable {env : PEnv}

theorem ecdhe_near {s s' : Ses CSt} {t t' : Bytes} {cs : Nat} {ours z : Bytes} (h : ClientEcdhe env s t cs ours z)
    (hn : Near s s') (ht : t <+: t') : ClientEcdhe env s' t' cs ours z := by
  obtain ⟨pre, seq, body, curve, group, pub, alg, sig, cr, sr, cert, n, h1, h0, h2, h3, h4, h5, h6⟩ := h
  obtain ⟨es, he⟩ := hn.log
  exact ⟨pre, seq, body, curve, group, pub, alg, sig, cr, sr, cert, n, by rw [he]; exact List.mem_append_right _ h1,
    List.IsPrefix.trans h0 ht, h2, hn.random _ h3, hn.peerRandom.trans h4, by rw [hn.peerCerts]; exact h5, h6⟩

theorem source_near {s s' : Ses CSt} {t t' : Bytes} {cs : Nat} {body z : Bytes} (h : ClientSource env s t cs body z)
    (hn : Near s s') (ht : t <+: t') : ClientSource env s' t' cs body z := by
  refine h.imp_right ?_
  rintro ⟨h1, ours, sent, h2, h3, h4⟩
  exact ⟨h1, ours, sent, ecdhe_near h2 hn ht, h3, h4.imp_right (·.near hn)⟩

theorem master_later {s s' : Ses CSt} (h : ClientMaster env s) (hn : Later s s') : ClientMaster env s' := by
  obtain ⟨cs, x, body, z, m, h1, h2, h3, h4, h5⟩ := h
  exact ⟨cs, x, body, z, m, hn.suite.trans h1, h2.near hn.toNear, source_near h3 hn.toNear (List.prefix_refl _), h4, hn.master.trans h5⟩

/-- No ServerKeyExchange has been waited for. -/
def early : CSt → Bool
  | .sendClientHello | .awaitHelloVerifyRequest | .awaitServerHello | .awaitCertificate => true
  | _ => false

/-- After the ServerKeyExchange, before the ClientKeyExchange. -/
def mid : CSt → Bool
  | .awaitCertificateRequest | .awaitServerHelloDone | .sendCertificate | .sendClientKeyExchange => true
  | _ => false

/-- After the ClientKeyExchange, before the keys. -/
def sent : CSt → Bool
  | .sendCertificateVerify | .sendChangeCipherSpec => true
  | _ => false

/-- The keys have been derived. -/
def made : CSt → Bool
  | .sendFinished | .awaitChangeCipherSpec | .awaitNewSessionTicket | .awaitFinished | .awaitApplicationData => true
  | _ => false

/-- What the ServerKeyExchange left. -/
def Mid (env : PEnv) (s : Ses CSt) : Prop :=
  ∃ cs, s.eng.suite = some cs ∧ (Config.isPsk cs = false → ∃ z ours sent, s.pms = some z ∧
    ClientEcdhe env s s.eng.transcript cs ours z ∧ s.kxPub = some sent ∧ (sent = ours ∨ Times 2 12 s))

/-- What the ClientKeyExchange left. -/
def Sent (env : PEnv) (s : Ses CSt) : Prop :=
  ∃ cs h body z, s.eng.suite = some cs ∧ s.sessionHash = some h ∧ UpToKx s h body ∧
    ClientSource env s h cs body z ∧ (s.pms = some z ∨ s.pms = none)

structure Stage (env : PEnv) (st : CSt) (s : Ses CSt) : Prop where
  early : early st = true → s.kxPub = none
  ske : st = .awaitServerKeyExchange → s.kxPub ≠ none → Times 1 12 s
  mid : mid st = true → Mid env s
  sent : sent st = true → Sent env s
  made : made st = true → ClientMaster env s

theorem Mid.near {s s' : Ses CSt} (h : Mid env s) (hn : Near s s') (hk : keying s' = keying s) : Mid env s' := by
  obtain ⟨cs, h1, h2⟩ := h
  refine ⟨cs, hn.suite.trans h1, fun g => ?_⟩
  obtain ⟨z, ours, sent, h3, h4, h5, h6⟩ := h2 g
  exact ⟨z, ours, sent, (congrArg (·.1) hk).trans h3, ecdhe_near h4 hn hn.prefix, (congrArg (·.2.2.1) hk).trans h5,
    h6.imp_right (·.near hn)⟩

theorem Sent.near {s s' : Ses CSt} (h : Sent env s) (hn : Near s s') (hk : keying s' = keying s) : Sent env s' := by
  obtain ⟨cs, x, body, z, h1, h2, h3, h4, h5⟩ := h
  have hp : s'.pms = s.pms := congrArg (·.1) hk
  exact ⟨cs, x, body, z, hn.suite.trans h1, (congrArg (·.2.2.2) hk).trans h2, h3.near hn, source_near h4 hn (List.prefix_refl _),
    by rw [hp]; exact h5⟩

theorem Stage.still {st : CSt} {s s' : Ses CSt} (h : Stage env st s) (hl : Later s s') (hk : keying s' = keying s) :
    Stage env st s' := by
  have hp : s'.kxPub = s.kxPub := congrArg (·.2.2.1) hk
  exact ⟨fun g => hp.trans (h.early g), fun g k => (h.ske g (hp ▸ k)).near hl.toNear,
    fun g => (h.mid g).near hl.toNear hk, fun g => (h.sent g).near hl.toNear hk, fun g => master_later (h.made g) hl⟩

/-- Where nothing is derived. -/
def idle : CSt → Bool
  | .awaitCertificateRequest | .awaitServerHelloDone | .sendCertificate | .sendCertificateVerify => true
  | _ => false

theorem keying_proj {St : Type} : Proj (fun s : Ses St => (keying s, s.st)) := fun _ _ _ => rfl

theorem early_keeps (st : CSt) (h : early st = true) (s : Ses CSt) :
    keying (C12.step env st s).2 = keying s ∧ (C12.step env st s).2.st = s.st := by
  have hp := keying_proj (St := CSt)
  have hx : ∀ l b, Keeps (fun s : Ses CSt => (keying s, s.st)) (C12.serverExtensions env l b) := by
    intro l
    induction l with
    | nil => exact fun _ => .pure _
    | cons x rest ih =>
      obtain ⟨t, d⟩ := x
      intro b
      unfold C12.serverExtensions
      simp only [bind_eq]
      split
      · refine .bind (.orTransient _) fun ps => ?_
        split
        · exact ih _
        · exact .bind (.modify fun _ => rfl) fun _ => ih _
      · exact ih _
  have hs : ∀ cs, Keeps (fun s : Ses CSt => (keying s, s.st)) (onEng (setCipherSuite env.toEnv cs)) := by
    intro cs s; rfl
  have key : Keeps (fun s : Ses CSt => (keying s, s.st)) (C12.step env st) := by
    cases st
    case awaitServerHello =>
      unfold C12.step C12.awaitServerHello; simp only [bind_eq, pure_eq]; keeps
      all_goals first | exact hs _ | exact hx _ _
    all_goals first
      | exact absurd h (by decide)
      | (unfold C12.step C12.sendClientHello; simp only [bind_eq, pure_eq]; keeps; done)
      | (unfold C12.step C12.awaitHelloVerifyRequest; simp only [bind_eq, pure_eq]; keeps; done)
      | (unfold C12.step C12.awaitCertificate; simp only [bind_eq, pure_eq]; keeps; done)
  have := key s
  exact ⟨congrArg (·.1) this, congrArg (·.2) this⟩

theorem idle_keeps (st : CSt) (h : idle st = true) (s : Ses CSt) :
    keying (C12.step env st s).2 = keying s ∧ (C12.step env st s).2.st = s.st ∧ Near s (C12.step env st s).2 := by
  have hp := keying_proj (St := CSt)
  have key : Keeps (fun s : Ses CSt => (keying s, s.st)) (C12.step env st) := by
    cases st
    all_goals first
      | exact absurd h (by decide)
      | (unfold C12.step C12.awaitCertificateRequest; simp only [bind_eq, pure_eq]; keeps; done)
      | (unfold C12.step C12.awaitServerHelloDone; simp only [bind_eq, pure_eq]; keeps; done)
      | (unfold C12.step C12.sendCertificate; simp only [bind_eq, pure_eq]; keeps; done)
      | (unfold C12.step C12.sendCertificateVerify C12.certificateVerifyBody; simp only [bind_eq, pure_eq]; keeps; done)
  have := key s
  refine ⟨congrArg (·.1) this, congrArg (·.2) this, (C12.step_near st ?_ ?_ ?_ s).1⟩
  all_goals (rintro rfl; exact absurd h (by decide))

theorem made_later (st : CSt) (h : made st = true) : SFr Later (C12.step env st) := by
  have hf := Later.rel (St := CSt)
  have g2 := fun a f g => announce_later (St := CSt) (env := env) a f g
  cases st
  case awaitApplicationData => exact app_later _ _
  case awaitChangeCipherSpec => exact ccs_later _ _
  all_goals first
    | exact absurd h (by decide)
    | (unfold C12.step C12.sendFinished; simp only [bind_eq, pure_eq]; sfr hf; done)
    | (unfold C12.step C12.awaitNewSessionTicket; simp only [bind_eq, pure_eq]; sfr hf; done)
    | (unfold C12.step C12.awaitFinished; simp only [bind_eq, pure_eq]; sfr hf; exact g2 _ _ _; done)

theorem next_early (x new : CSt) (hn : new ∈ C12.next x) (h : early x = true) :
    early new = true ∨ new = .awaitServerKeyExchange := by
  revert hn h; cases x <;> cases new <;> decide

theorem next_idle (x new : CSt) (hn : new ∈ C12.next x) (h : idle x = true) :
    (mid x = true ∧ mid new = true) ∨ (sent x = true ∧ sent new = true) := by
  revert hn h; cases x <;> cases new <;> decide

theorem next_made (x new : CSt) (hn : new ∈ C12.next x) (h : made x = true) :
    made new = true ∨ new = .closed := by
  revert hn h; cases x <;> cases new <;> decide

/-! ## Stages from one fact -/

theorem stage_early {st : CSt} {s : Ses CSt} (h : early st = true ∨ st = .awaitServerKeyExchange)
    (hk : s.kxPub = none) : Stage env st s := by
  refine ⟨fun _ => hk, fun _ g => absurd hk g, ?_, ?_, ?_⟩
  all_goals
    intro g
    rcases h with h | rfl
    · exfalso; revert h g; cases st <;> decide
    · exact absurd g (by decide)

theorem stage_mid {st : CSt} {s : Ses CSt} (h : mid st = true) (hm : Mid env s) : Stage env st s := by
  refine ⟨?_, ?_, fun _ => hm, ?_, ?_⟩
  · intro g; exfalso; revert h g; cases st <;> decide
  · rintro rfl; exact absurd h (by decide)
  · intro g; exfalso; revert h g; cases st <;> decide
  · intro g; exfalso; revert h g; cases st <;> decide

theorem stage_sent {st : CSt} {s : Ses CSt} (h : sent st = true) (hm : Sent env s) : Stage env st s := by
  refine ⟨?_, ?_, ?_, fun _ => hm, ?_⟩
  · intro g; exfalso; revert h g; cases st <;> decide
  · rintro rfl; exact absurd h (by decide)
  · intro g; exfalso; revert h g; cases st <;> decide
  · intro g; exfalso; revert h g; cases st <;> decide

theorem stage_made {st : CSt} {s : Ses CSt} (h : made st = true ∨ st = .closed) (hm : ClientMaster env s) :
    Stage env st s := by
  refine ⟨?_, ?_, ?_, ?_, fun _ => hm⟩
  · intro g; rcases h with h | rfl
    · exfalso; revert h g; cases st <;> decide
    · exact absurd g (by decide)
  · rintro rfl; rcases h with h | h
    · exact absurd h (by decide)
    · cases h
  · intro g; rcases h with h | rfl
    · exfalso; revert h g; cases st <;> decide
    · exact absurd g (by decide)
  · intro g; rcases h with h | rfl
    · exfalso; revert h g; cases st <;> decide
    · exact absurd g (by decide)

theorem stage_ske {s : Ses CSt} (h : s.kxPub ≠ none → Times 1 12 s) : Stage env .awaitServerKeyExchange s :=
  ⟨nofun, fun _ => h, nofun, nofun, nofun⟩

/-! ## The states -/

theorem awaitServerKeyExchange_stage (s : Ses CSt) (h : Stage env .awaitServerKeyExchange s) :
    wp (C12.awaitServerKeyExchange env) s (fun new s' => s'.st = s.st ∧ Stage env new s')
      (fun _ s' => s'.st = s.st ∧ Stage env .awaitServerKeyExchange s') := by
  have h0 := h.ske rfl
  unfold C12.awaitServerKeyExchange
  simp only [bind_eq, wp_bind, wp_get]
  refine wp_orFatal_of (fun cs hcs => ?_) ⟨rfl, h⟩
  have keep : ∀ e : Eng, Grow s.eng e → Stage env .awaitServerKeyExchange { s with eng := e } := fun e hg =>
    stage_ske fun g => (h0 g).near (Near.rel.eng _ _ hg)
  split
  · rename_i hpsk
    unfold C12.awaitServerKeyExchangePsk
    simp only [bind_eq, pure_eq, wp_bind, wp_get]
    have fin : ∀ e : Eng, Grow s.eng e → Stage env .awaitServerHelloDone { s with eng := e } := fun e hg =>
      stage_mid rfl ⟨cs, hg.suite.trans hcs, fun g => by rw [hpsk] at g; cases g⟩
    split
    · exact ⟨rfl, fin s.eng (.refl _)⟩
    · simp only [wp_bind, wp_onEng]
      refine wp_mono (nextHandshake_ok env.toEnv mtServerKeyExchange s.eng (by decide)) ?_ ?_
      · rintro m e ⟨hg, _⟩
        split
        · exact ⟨rfl, keep e hg⟩
        · exact ⟨rfl, fin e hg⟩
        · exact ⟨rfl, keep e hg⟩
        · exact ⟨rfl, keep e hg⟩
      · intro _ e hg
        exact ⟨by trivial, keep e hg⟩
  · rename_i hpsk
    unfold C12.awaitServerKeyExchangeEcdhe
    simp only [bind_eq, pure_eq, wp_bind, wp_onEng]
    refine wp_mono (nextHandshake_ok env.toEnv mtServerKeyExchange s.eng (by decide)) ?_ ?_
    · rintro m e ⟨hg, ⟨rfl, rfl⟩ | ⟨b, seq, body, rfl, hlog, hp, htr⟩⟩
      · exact ⟨rfl, h⟩
      have bad : ({ s with eng := e } : Ses CSt).st = s.st ∧ Stage env .awaitServerKeyExchange { s with eng := e } :=
        ⟨rfl, keep e hg⟩
      split
      · rename_i heq; cases heq
      · rename_i curve group pub alg sig heq
        cases heq
        obtain ⟨cs', x, hsu, hx, hpx⟩ := parseBody_serverKx hp
        cases hx
        rw [hcs] at hsu
        cases hsu
        simp only [wp_bind, wp_get]
        refine wp_orPanic_of (fun cr hcr => ?_) bad
        refine wp_orPanic_of (fun sr hsr => ?_) bad
        refine wp_check_of (fun halg => ?_) bad
        refine wp_check_of (fun _ => ?_) bad
        refine wp_orPanic_of (fun cert hcert => ?_) bad
        refine wp_check_of (fun hver => ?_) bad
        unfold C12.processEcdh
        simp only [bind_eq, wp_bind]
        refine wp_check_of (fun hgr => ?_) bad
        have hmem : ∀ s' : Ses CSt, s'.eng.log = e.log → .consumed seq 12 body ∈ s'.eng.log := fun s' hl => by
          rw [hl, hlog]; exact List.mem_cons_self
        unfold drawTick
        refine wp_orFatal_of (fun ours hours => ?_) ⟨rfl, stage_ske fun _ => .of_mem (hmem _ rfl)⟩
        rw [wp_modify]
        refine wp_orFatal_of (fun z hz => ?_) ⟨rfl, stage_ske fun _ => .of_mem (hmem _ rfl)⟩
        rw [wp_modify]
        refine ⟨rfl, stage_mid rfl ⟨cs, hg.suite.trans hcs, fun _ => ⟨z, ours, s.kxPub.getD ours, rfl,
          ⟨s.eng.transcript, seq, body, curve, group, pub, alg, sig, cr, sr, cert, _, hmem _ rfl,
            ⟨[], (List.append_nil _).trans htr.symm⟩, hpx, hcr, hsr, hcert, hver, List.contains_iff_mem.mp hgr, hours,
              hz⟩,
          rfl, ?_⟩⟩⟩
        cases hk : s.kxPub with
        | none => exact .inl rfl
        | some p =>
          refine .inr ?_
          have h1 := h0 (by rw [hk]; nofun)
          unfold Times at h1 ⊢
          show 2 ≤ e.log.countP _
          rw [hlog, List.countP_cons_of_pos (by simp [isMsg, mtServerKeyExchange])]
          omega
      · exact bad
      · exact bad
    · intro _ e hg
      exact ⟨by trivial, keep e hg⟩

theorem sendClientKeyExchange_stage (s : Ses CSt) (h : Stage env .sendClientKeyExchange s) :
    wp (C12.sendClientKeyExchange env) s (fun new s' => s'.st = s.st ∧ Stage env new s')
      (fun _ s' => s'.st = s.st ∧ Stage env .sendClientKeyExchange s') := by
  obtain ⟨cs, hcs, hm⟩ := h.mid rfl
  unfold C12.sendClientKeyExchange
  simp only [bind_eq, pure_eq, wp_bind, wp_get]
  -- the flight may begin
  have start : ∀ {K : P CSt CSt} {Q : CSt → Ses CSt → Prop} {F : Fault → Ses CSt → Prop},
      (∀ e, Near s { s with eng := e } → wp K { s with eng := e } Q F) →
      wp (if s.certificateVerify = true then K else M.bind (onEng' (flightBegin env.toEnv)) fun _ => K) s Q F := by
    intro K Q F hq
    split
    · exact hq s.eng (Near.rel.refl s)
    · rw [wp_bind, wp_onEng']
      exact hq _ (Near.rel.eng s _ (.of rfl rfl rfl rfl))
  refine start fun e hn => ?_
  have hcs' : e.suite = some cs := hn.suite.trans hcs
  -- after the body
  have tail : ∀ (s1 : Ses CSt) (body : Bytes) (z : Bytes), Near s s1 → s1.st = s.st → s1.eng.suite = some cs →
      Mid env s1 → s1.pms = some z → ClientSource env s1 s1.eng.transcript cs body z →
      wp (M.bind (onEng (createHandshake env.toEnv mtClientKeyExchange body)) fun _ =>
          M.bind M.get fun s => M.bind (orFatal s.eng.suite .invalidState) fun _ =>
          M.bind (M.modify fun s => { s with sessionHash := some s.eng.transcript }) fun _ =>
          M.pure (if s.certificateVerify then CSt.sendCertificateVerify else .sendChangeCipherSpec)) s1
        (fun new s' => s'.st = s.st ∧ Stage env new s')
        (fun _ s' => s'.st = s.st ∧ Stage env .sendClientKeyExchange s') := by
    intro s1 body z hn1 hst1 hcs1 hmid hz hsrc
    have hg := createHandshake_grow env.toEnv mtClientKeyExchange body s1.eng
    have ht := createHandshake_msg env.toEnv mtClientKeyExchange body s1.eng
    rw [wp_bind, wp_onEng]
    refine wp_mono (to_wp (R := fun e : Eng => Grow s1.eng e ∧ e.transcript = s1.eng.transcript ++
      flat [⟨16, s1.eng.nextSeq, body⟩]) ⟨hg, ht⟩) ?_ ?_
    · rintro _ e2 ⟨g1, g2⟩
      have hn2 : Near s1 { s1 with eng := e2 } := Near.rel.eng _ _ g1
      simp only [wp_bind, wp_get]
      refine wp_orFatal_of (fun _ _ => ?_) ⟨hst1, stage_mid rfl (hmid.near hn2 rfl)⟩
      simp only [wp_modify, wp_pure]
      refine ⟨hst1, stage_sent (by split <;> rfl) ⟨cs, e2.transcript, body, z, hn2.suite.trans hcs1, rfl,
        ⟨⟨s1.eng.transcript, s1.eng.nextSeq, ?_⟩, List.prefix_refl _⟩, ?_, .inl hz⟩⟩
      · rw [g2, transcriptOf_bytes]
      · exact source_near (s := s1) hsrc ⟨fun _ g => g, rfl, rfl, rfl, rfl, g1.suite, g1.log, g1.transcript⟩ hn2.prefix
    · rintro _ e2 ⟨g1, g2⟩
      exact ⟨hst1, stage_mid rfl (hmid.near (Near.rel.eng s1 _ g1) rfl)⟩
  have hmid : Mid env { s with eng := e } := (h.mid rfl).near hn rfl
  unfold C12.clientKeyExchangeBody
  simp only [bind_eq, pure_eq]
  rw [wp_bind, wp_bind, wp_get, wp_bind]
  refine wp_orFatal_of (fun cs' hcs2 => ?_) ⟨rfl, stage_mid rfl hmid⟩
  rw [show _ = some cs' from hcs2] at hcs'
  cases hcs'
  split
  · rename_i hpsk
    rw [wp_bind]
    refine wp_orFatal_of (fun i hi => ?_) ⟨rfl, stage_mid rfl hmid⟩
    rw [wp_bind]
    refine wp_orFatal_of (fun f hf => ?_) ⟨rfl, stage_mid rfl hmid⟩
    rw [wp_bind]
    refine wp_orFatal_of (fun key hkey => ?_) ⟨rfl, stage_mid rfl hmid⟩
    rw [wp_bind, wp_modify, wp_pure]
    refine tail { s with eng := e, pms := some (pskPms key) } _ (pskPms key) ?_ rfl hcs2 ?_ rfl ?_
    · exact ⟨hn.random, hn.peerRandom, hn.peerCerts, hn.srtp, hn.offered, hn.suite, hn.log, hn.transcript⟩
    · exact ⟨cs, hcs2, fun g => by rw [hpsk] at g; cases g⟩
    · exact .inl ⟨hpsk, i, f, key, hi, hf, hkey, pskPms_eq key, rfl⟩
  · rename_i hpsk
    have hpsk : Config.isPsk cs = false := by simpa using hpsk
    obtain ⟨z, ours, sent, g1, g2, g3, g4⟩ := hm hpsk
    rw [wp_bind]
    refine wp_orPanic_of (fun pub hpub => ?_) ⟨rfl, stage_mid rfl hmid⟩
    have hpub : s.kxPub = some pub := hpub
    rw [g3] at hpub
    cases hpub
    rw [wp_pure]
    exact tail { s with eng := e } _ z hn rfl hcs2 hmid g1
      (.inr ⟨hpsk, ours, sent, ecdhe_near g2 hn hn.prefix, rfl, g4.imp_right (·.near hn)⟩)

theorem sendChangeCipherSpec_stage (s : Ses CSt) (h : Stage env .sendChangeCipherSpec s) :
    wp (C12.sendChangeCipherSpec env) s (fun new s' => s'.st = s.st ∧ Stage env new s')
      (fun _ s' => s'.st = s.st ∧ Stage env .sendChangeCipherSpec s') := by
  obtain ⟨cs, x, body, z, h1, h2, h3, h4, h5⟩ := h.sent rfl
  unfold C12.sendChangeCipherSpec C12.deriveKeys deriveMaster
  simp only [bind_eq, pure_eq, wp_bind, wp_get]
  refine wp_orFatal_of (fun cs' hcs => ?_) ⟨rfl, h⟩
  rw [h1] at hcs; cases hcs
  refine wp_orFatal_of (fun sr _ => ?_) ⟨rfl, h⟩
  refine wp_orPanic_of (fun cr _ => ?_) ⟨rfl, h⟩
  refine wp_orFatal_of (fun hash hh => ?_) ⟨rfl, h⟩
  rw [h2] at hh; cases hh
  refine wp_orFatal_of (fun z' hz => ?_) ⟨rfl, h⟩
  rcases h5 with h5 | h5
  · rw [h5] at hz; cases hz
    refine wp_orFatal_of (fun m hm => ?_) ⟨rfl, h⟩
    rw [wp_modify]
    have bad : ∀ e : Eng, Grow s.eng { e with master := s.eng.master } →
        Stage env .sendChangeCipherSpec { s with pms := none, eng := e } := by
      intro e hg
      have hn : Near s { s with pms := none, eng := e } :=
        ⟨fun _ g => g, rfl, rfl, rfl, rfl, hg.suite, hg.log, hg.transcript⟩
      exact stage_sent rfl ⟨cs, x, body, z, hn.suite.trans h1, h2, h3.near hn, source_near h4 hn (List.prefix_refl _), .inr rfl⟩
    refine wp_orFatal_of (fun k _ => ?_) ⟨rfl, bad _ (.of rfl rfl rfl rfl)⟩
    rw [wp_modify, wp_onEng]
    refine wp_mono (to_wp (R := fun e : Eng => e.master = some m ∧ Grow s.eng { e with master := s.eng.master }) ?_) ?_ ?_
    · have hg := createRecord_grow env.toEnv ctCCS 0 true false [1]
        { s.eng with master := some m, keys := some k }
      exact ⟨hg.master, hg.suite, rfl, hg.log, hg.transcript⟩
    · rintro _ e ⟨g1, g2⟩
      have hn : Near s { s with pms := none, eng := e } :=
        ⟨fun _ g => g, rfl, rfl, rfl, rfl, g2.suite, g2.log, g2.transcript⟩
      exact ⟨rfl, stage_made (.inl rfl) ⟨cs, x, body, z, m, hn.suite.trans h1, h3.near hn, source_near h4 hn (List.prefix_refl _), hm, g1⟩⟩
    · rintro _ e ⟨_, g2⟩
      exact ⟨rfl, bad e g2⟩
  · rw [h5] at hz; cases hz

theorem saga : Saga C12.role env (Stage env) (ClientMaster env) where
  later st s s' hl h := h.still hl.toLater hl.kxSame
  closed st s h := ⟨nofun, nofun, nofun, nofun, nofun⟩
  app s h := h.made rfl
  done s s' hl h := master_later h hl.toLater
  step st s h := by
    show wp (C12.step env st) s _ _
    have hnext := Rets.wp (C12.step_next (env := env) st) s
    cases he : early st with
    | true =>
      have hk := early_keeps (env := env) st he s
      refine wp_mono (wp_and (to_wp (m := C12.step env st) (s := s)
        (R := fun s' => keying s' = keying s ∧ s'.st = s.st) hk) hnext) ?_ ?_
      · rintro new s' ⟨⟨g1, g2⟩, hn⟩
        exact ⟨g2, stage_early (next_early _ _ hn he) ((congrArg (·.2.2.1) g1).trans (h.early he))⟩
      · rintro _ s' ⟨⟨g1, g2⟩, _⟩
        exact ⟨g2, stage_early (.inl he) ((congrArg (·.2.2.1) g1).trans (h.early he))⟩
    | false =>
    cases hi : idle st with
    | true =>
      have hk := idle_keeps (env := env) st hi s
      refine wp_mono (wp_and (to_wp (m := C12.step env st) (s := s)
        (R := fun s' => keying s' = keying s ∧ s'.st = s.st ∧ Near s s') hk) hnext) ?_ ?_
      · rintro new s' ⟨⟨g1, g2, g3⟩, hn⟩
        rcases next_idle _ _ hn hi with ⟨n1, n2⟩ | ⟨n1, n2⟩
        · exact ⟨g2, stage_mid n2 ((h.mid n1).near g3 g1)⟩
        · exact ⟨g2, stage_sent n2 ((h.sent n1).near g3 g1)⟩
      · rintro _ s' ⟨⟨g1, g2, g3⟩, _⟩
        refine ⟨g2, ?_⟩
        have hc : mid st = true ∨ sent st = true := by revert hi; cases st <;> decide
        rcases hc with n | n
        · exact stage_mid n ((h.mid n).near g3 g1)
        · exact stage_sent n ((h.sent n).near g3 g1)
    | false =>
    cases hm : made st with
    | true =>
      refine wp_mono (wp_and (SFr.wp (made_later (env := env) st hm) s) hnext) ?_ ?_
      · rintro new s' ⟨⟨g1, g2⟩, hn⟩
        exact ⟨g2, stage_made (next_made _ _ hn hm) (master_later (h.made hm) g1)⟩
      · rintro _ s' ⟨⟨g1, g2⟩, _⟩
        exact ⟨g2, stage_made (.inl hm) (master_later (h.made hm) g1)⟩
    | false =>
      cases st
      case awaitServerKeyExchange => exact awaitServerKeyExchange_stage s h
      case sendClientKeyExchange => exact sendClientKeyExchange_stage s h
      case sendChangeCipherSpec => exact sendChangeCipherSpec_stage s h
      case closed => exact ⟨rfl, h⟩
      all_goals first
        | exact absurd he (by decide)
        | exact absurd hi (by decide)
        | exact absurd hm (by decide)

theorem start_onTrack {cfg : Cfg} {s0 : Ses CSt} (h : Shake12.Client.Begins env cfg s0) :
    OnTrack C12.role (Stage env) (ClientMaster env) s0 := by
  cases h with
  | plain now => exact ⟨stage_early (.inl rfl) rfl, nofun, nofun⟩
  | hybrid random fragment now => exact ⟨stage_early (.inl rfl) rfl, nofun, nofun⟩

theorem onTrack {cfg : Cfg} {s0 : Ses CSt} (h : Shake12.Client.Begins env cfg s0) (cs : List Call) :
    OnTrack C12.role (Stage env) (ClientMaster env) (run C12.role env s0 cs).2 :=
  (Saga.stable C12.showRule (C12.roleOk env) saga).run _ cs (fun _ _ => trivial) (start_onTrack h)

end Client

/-- **C73, client.** Once the keys are derived, and once Connected is reported, the client's master secret is
the extended master secret of the transcript up to its ClientKeyExchange and of the premaster secret that goes
with that ClientKeyExchange: RFC 4279's for the resolver's key, or the secret its key exchange made of the share
in a ServerKeyExchange signed under the server's certificate. -/
theorem client_master {env : PEnv} {cfg : Cfg} {s0 : Ses CSt} (h : Shake12.Client.Begins env cfg s0)
    (hd : DecShort env.toEnv) (cs : List Call) :
    let r := run C12.role env s0 cs
    (0 < (outputs r.1).count .connected + r.2.events.count .connected → ClientMaster env r.2) ∧
    (r.2.st ∈ [CSt.sendFinished, .awaitChangeCipherSpec, .awaitNewSessionTicket, .awaitFinished,
      .awaitApplicationData] → ClientMaster env r.2) := by
  intro r
  constructor
  · intro g
    obtain ⟨p, hh⟩ := h.start.hist hd cs
    have hc : (outputs r.1).count .connected + r.2.events.count .connected = if r.2.eng.release then 1 else 0 := hh.conn
    rw [hc] at g
    refine (Client.onTrack h cs).done ?_
    cases hb : r.2.eng.release with
    | true => rfl
    | false => rw [hb] at g; exact absurd g (by decide)
  · intro g
    refine (Client.onTrack h cs).stage.made ?_
    exact (by intro x; cases x <;> decide : ∀ x : CSt, x ∈ [CSt.sendFinished, .awaitChangeCipherSpec,
      .awaitNewSessionTicket, .awaitFinished, .awaitApplicationData] → Client.made x = true) _ g

namespace Server
variable {env : PEnv}

/-- What the conditions are about. -/
structure Holds (s s' : Ses SSt) : Prop where
  random : ∀ r, s.random = some r → s'.random = some r
  peerRandom : s'.peerRandom = s.peerRandom
  suite : s'.eng.suite = s.eng.suite
  transcript : s.eng.transcript <+: s'.eng.transcript

theorem _root_.Verif.E12.Near.holds {s s' : Ses SSt} (h : Near s s') : Holds s s' :=
  ⟨h.random, h.peerRandom, h.suite, h.prefix⟩

theorem In.mono {t t' pre body : Bytes} {type : UInt8} {seq : Nat} (h : In t pre type seq body) (ht : t <+: t') :
    In t' pre type seq body := List.IsPrefix.trans h ht

theorem share_holds {s s' : Ses SSt} {t t' : Bytes} {n group : Nat} (h : ServerShare env s t n group)
    (hk : Holds s s') (ht : t <+: t') : ServerShare env s' t' n group := by
  obtain ⟨ours, share, pre, h1, ⟨seq, cr, sr, alg, k, sig, g1, g2, g3, g4⟩, h3⟩ := h
  exact ⟨ours, share, pre, h1, ⟨seq, cr, sr, alg, k, sig, hk.peerRandom.trans g1, hk.random _ g2, g3, In.mono g4 ht⟩, h3⟩

theorem source_holds {s s' : Ses SSt} {t : Bytes} {cs : Nat} {body z : Bytes} (h : ServerSource env s t cs body z)
    (hk : Holds s s') (hp : s'.pskValid = s.pskValid) : ServerSource env s' t cs body z := by
  rcases h with ⟨h1, i, f, h2, h3, h4⟩ | ⟨h1, n, g, pub, h2, h3, h4⟩
  · exact .inl ⟨h1, i, f, h2, h3, h4.imp_right fun h => ⟨h.1, hp.trans h.2⟩⟩
  · exact .inr ⟨h1, n, g, pub, h2, share_holds h3 hk (List.prefix_refl _), h4⟩

theorem master_later {s s' : Ses SSt} (h : ServerMaster env s) (hn : Later s s') : ServerMaster env s' := by
  obtain ⟨cs, x, seq, body, z, m, h1, h2, h3, h4, h5, h6⟩ := h
  obtain ⟨es, he⟩ := hn.log
  exact ⟨cs, x, seq, body, z, m, hn.suite.trans h1, h2.near hn.toNear, by rw [he]; exact List.mem_append_right _ h3,
    source_holds h4 hn.toNear.holds hn.pskValid, h5, hn.master.trans h6⟩

theorem failed_mono {t t' : Bytes} (h : SkeFailed env t) (ht : t <+: t') : SkeFailed env t' :=
  h.imp_right fun ⟨pre, seq, body, g⟩ => ⟨pre, seq, body, In.mono g ht⟩

/-- No ServerKeyExchange has been made. -/
def early : SSt → Bool
  | .awaitClientHello | .sendServerHello | .sendCertificate => true
  | _ => false

/-- After the ServerKeyExchange, before the keys. -/
def mid : SSt → Bool
  | .sendCertificateRequest | .sendServerHelloDone | .awaitCertificate | .awaitClientKeyExchange => true
  | _ => false

/-- The keys have been derived. -/
def made : SSt → Bool
  | .awaitCertificateVerify | .awaitChangeCipherSpec | .awaitFinished | .sendChangeCipherSpec | .sendFinished
  | .awaitApplicationData => true
  | _ => false

/-- The client's Finished was accepted. -/
def accepted : SSt → Bool
  | .sendChangeCipherSpec | .sendFinished | .awaitApplicationData => true
  | _ => false

/-- What the ServerKeyExchange left. -/
def Mid (env : PEnv) (s : Ses SSt) : Prop :=
  ∃ cs, s.eng.suite = some cs ∧ (Config.isPsk cs = false → ∀ n g, s.kx = some (n, g) →
    ServerShare env s s.eng.transcript n g)

structure Stage (env : PEnv) (st : SSt) (s : Ses SSt) : Prop where
  early : early st = true → s.kxPub = none
  ske : st = .sendServerKeyExchange → s.kxPub ≠ none → SkeFailed env s.eng.transcript
  mid : mid st = true → Mid env s
  made : made st = true → ServerMaster env s
  accepted : accepted st = true → s.pskValid ≠ some false

/-- What a connected server's master secret is from, the pre-shared key being known. -/
structure Done (env : PEnv) (s : Ses SSt) : Prop where
  master : ServerMaster env s
  valid : s.pskValid ≠ some false

theorem Mid.holds {s s' : Ses SSt} (h : Mid env s) (hn : Holds s s') (hk : s'.kx = s.kx ∨ s'.kx = none) :
    Mid env s' := by
  obtain ⟨cs, h1, h2⟩ := h
  refine ⟨cs, hn.suite.trans h1, fun g n gr hx => ?_⟩
  rcases hk with hk | hk
  · exact share_holds (h2 g n gr (hk.symm.trans hx)) hn hn.transcript
  · rw [hk] at hx; cases hx

theorem Stage.still {st : SSt} {s s' : Ses SSt} (h : Stage env st s) (hl : Later s s') (hk : keying s' = keying s) :
    Stage env st s' := by
  have hp : s'.kxPub = s.kxPub := congrArg (·.2.2.1) hk
  have hx : s'.kx = s.kx := congrArg (·.2.1) hk
  exact ⟨fun g => hp.trans (h.early g), fun g k => failed_mono (h.ske g (hp ▸ k)) hl.toNear.prefix,
    fun g => (h.mid g).holds hl.toNear.holds (.inl hx), fun g => master_later (h.made g) hl,
    fun g => by rw [hl.pskValid]; exact h.accepted g⟩

theorem stage_early {st : SSt} {s : Ses SSt} (h : early st = true ∨ st = .sendServerKeyExchange)
    (hk : s.kxPub = none) : Stage env st s := by
  refine ⟨fun _ => hk, fun _ g => absurd hk g, ?_, ?_, ?_⟩
  all_goals
    intro g
    exfalso
    rcases h with h | rfl
    · revert h g; cases st <;> decide
    · exact absurd g (by decide)

theorem stage_mid {st : SSt} {s : Ses SSt} (h : mid st = true) (hm : Mid env s) : Stage env st s := by
  refine ⟨?_, ?_, fun _ => hm, ?_, ?_⟩
  · intro g; exfalso; revert h g; cases st <;> decide
  · rintro rfl; exact absurd h (by decide)
  · intro g; exfalso; revert h g; cases st <;> decide
  · intro g; exfalso; revert h g; cases st <;> decide

theorem stage_made {st : SSt} {s : Ses SSt} (h : made st = true ∨ st = .closed) (hm : ServerMaster env s)
    (hv : accepted st = true → s.pskValid ≠ some false) : Stage env st s := by
  refine ⟨?_, ?_, ?_, fun _ => hm, hv⟩
  · intro g; exfalso; rcases h with h | rfl
    · revert h g; cases st <;> decide
    · exact absurd g (by decide)
  · rintro rfl; rcases h with h | h
    · exact absurd h (by decide)
    · cases h
  · intro g; exfalso; rcases h with h | rfl
    · revert h g; cases st <;> decide
    · exact absurd g (by decide)

theorem stage_ske {s : Ses SSt} (h : s.kxPub ≠ none → SkeFailed env s.eng.transcript) :
    Stage env .sendServerKeyExchange s :=
  ⟨nofun, fun _ => h, nofun, nofun, nofun⟩

theorem keying_proj : Proj (fun s : Ses SSt => (keying s, s.st)) := fun _ _ _ => rfl

theorem early_keeps (st : SSt) (h : early st = true) (s : Ses SSt) :
    keying (S12.step env st s).2 = keying s ∧ (S12.step env st s).2.st = s.st := by
  have hp := keying_proj
  have hx : ∀ l x, Keeps (fun s : Ses SSt => (keying s, s.st)) (S12.clientExtensions env l x) := by
    intro l
    induction l with
    | nil => exact fun _ => .pure _
    | cons y rest ih =>
      obtain ⟨t, d⟩ := y
      intro x
      have ih := fun x => ih x
      unfold S12.clientExtensions
      simp only [bind_eq]
      keeps
      all_goals exact ih _
  have hs : ∀ cs, Keeps (fun s : Ses SSt => (keying s, s.st)) (onEng (setCipherSuite env.toEnv cs)) := by
    intro cs s; rfl
  have key : Keeps (fun s : Ses SSt => (keying s, s.st)) (S12.step env st) := by
    cases st
    case awaitClientHello =>
      unfold S12.step S12.awaitClientHello S12.acceptClientHello S12.sendHelloVerify
      simp only [bind_eq, pure_eq]; keeps
      all_goals first | exact hs _ | exact hx _ _
    all_goals first
      | exact absurd h (by decide)
      | (unfold S12.step S12.sendServerHello; simp only [bind_eq, pure_eq]; keeps; done)
      | (unfold S12.step S12.sendCertificate; simp only [bind_eq, pure_eq]; keeps; done)
  have := key s
  exact ⟨congrArg (·.1) this, congrArg (·.2) this⟩

/-- Where nothing is derived. -/
def idle : SSt → Bool
  | .sendCertificateRequest | .sendServerHelloDone => true
  | _ => false

theorem idle_keeps (st : SSt) (h : idle st = true) (s : Ses SSt) :
    keying (S12.step env st s).2 = keying s ∧ (S12.step env st s).2.st = s.st ∧ Later s (S12.step env st s).2 := by
  have hp := keying_proj
  have key : Keeps (fun s : Ses SSt => (keying s, s.st)) (S12.step env st) := by
    cases st
    all_goals first
      | exact absurd h (by decide)
      | (unfold S12.step S12.sendCertificateRequest; simp only [bind_eq, pure_eq]; keeps; done)
      | (unfold S12.step S12.sendServerHelloDone; simp only [bind_eq, pure_eq]; keeps; done)
  have := key s
  refine ⟨congrArg (·.1) this, congrArg (·.2) this, (S12.step_later st ?_ ?_ ?_ s).1⟩
  all_goals (rintro rfl; exact absurd h (by decide))

theorem next_early (x new : SSt) (hn : new ∈ S12.next x) (h : early x = true) :
    early new = true ∨ new = .sendServerKeyExchange := by
  revert hn h; cases x <;> cases new <;> decide

theorem next_idle (x new : SSt) (hn : new ∈ S12.next x) (h : idle x = true) : mid new = true := by
  revert hn h; cases x <;> cases new <;> decide

theorem next_made (x new : SSt) (hn : new ∈ S12.next x) (h : made x = true) :
    (made new = true ∨ new = .closed) ∧ (accepted new = true → x = .awaitFinished ∨ accepted x = true) := by
  revert hn h; cases x <;> cases new <;> decide

/-! ## The states -/

theorem sendServerKeyExchange_stage (s : Ses SSt) (h : Stage env .sendServerKeyExchange s) :
    wp (S12.sendServerKeyExchange env) s (fun new s' => s'.st = s.st ∧ Stage env new s')
      (fun _ s' => s'.st = s.st ∧ Stage env .sendServerKeyExchange s') := by
  have h0 := h.ske rfl
  unfold S12.sendServerKeyExchange
  simp only [bind_eq, wp_bind, wp_get]
  refine wp_orFatal_of (fun cs hcs => ?_) ⟨rfl, h⟩
  split
  · rename_i hpsk
    have fin : ∀ e : Eng, Grow s.eng e → Stage env .sendServerHelloDone { s with eng := e } := fun e hg =>
      stage_mid rfl ⟨cs, hg.suite.trans hcs, fun g => by rw [hpsk] at g; cases g⟩
    unfold S12.sendServerKeyExchangePsk
    split
    · exact ⟨rfl, fin s.eng (.refl _)⟩
    · simp only [bind_eq, pure_eq, wp_bind, wp_onEng]
      refine wp_mono (to_wp (R := fun e : Eng => Grow s.eng e) (createHandshake_grow ..)) ?_ ?_
      · exact fun _ e hg => ⟨rfl, fin e hg⟩
      · exact fun _ e hg => ⟨by trivial, stage_ske fun g => failed_mono (h0 g) (Near.rel.eng s e hg).prefix⟩
  · rename_i hpsk
    unfold S12.sendServerKeyExchangeEcdhe
    simp only [bind_eq, pure_eq, wp_bind, wp_get]
    refine wp_orFatal_of (fun cr hcr => ?_) ⟨rfl, h⟩
    refine wp_orPanic_of (fun sr hsr => ?_) ⟨rfl, h⟩
    refine wp_orFatal_of (fun group _ => ?_) ⟨rfl, h⟩
    refine wp_orPanic_of (fun sg _ => ?_) ⟨rfl, h⟩
    refine wp_orPanic_of (fun hh _ => ?_) ⟨rfl, h⟩
    unfold S12.serverKeyExchangeBody
    simp only [bind_eq, pure_eq, wp_bind, wp_get]
    refine wp_check_of (fun _ => ?_) ⟨rfl, h⟩
    unfold drawTick
    refine wp_orFatal_of (fun ours hours => ?_) ⟨rfl, stage_ske h0⟩
    rw [wp_modify]
    refine wp_orFatal_eq (fun sig hsig => ?_) fun hnone => ⟨rfl, stage_ske fun _ => .inl ⟨_, _, _, hnone⟩⟩
    rw [wp_pure, wp_onEng]
    generalize hbody : ([3] ++ beBytes 2 group ++ [UInt8.ofNat (s.kxPub.getD ours).length] ++ s.kxPub.getD ours ++
      beBytes 2 (S12.selectSig s.clientSigs sg hh env.keyHashes) ++ beBytes 2 sig.length ++ sig : Bytes) = body
    have hg := createHandshake_grow env.toEnv mtServerKeyExchange body { s.eng with tick := s.eng.tick + 1 }
    have ht := createHandshake_msg env.toEnv mtServerKeyExchange body { s.eng with tick := s.eng.tick + 1 }
    refine wp_mono (to_wp (R := fun e : Eng => Grow { s.eng with tick := s.eng.tick + 1 } e ∧
      e.transcript = s.eng.transcript ++ flat [⟨12, s.eng.nextSeq, body⟩]) ⟨hg, ht⟩) ?_ ?_
    · rintro _ e ⟨g1, g2⟩
      refine ⟨rfl, stage_mid (by split <;> rfl) ⟨cs, g1.suite.trans hcs, fun _ n g hx => ?_⟩⟩
      cases hx
      refine ⟨ours, s.kxPub.getD ours, s.eng.transcript, hours,
        ⟨s.eng.nextSeq, cr, sr, _, _, sig, hcr, hsr, hsig, ?_⟩, ?_⟩
      · rw [hbody]
        refine ⟨[], ?_⟩
        show _ = e.transcript
        rw [List.append_nil, g2, transcriptOf_bytes]
      · cases hk : s.kxPub with
        | none => exact .inl rfl
        | some p => exact .inr (h0 (by rw [hk]; nofun))
    · rintro _ e ⟨g1, g2⟩
      refine ⟨by trivial, stage_ske fun _ => .inr ⟨s.eng.transcript, s.eng.nextSeq, body, [], ?_⟩⟩
      show _ = e.transcript
      rw [List.append_nil, g2, transcriptOf_bytes]

theorem awaitCertificate_stage (s : Ses SSt) (h : Stage env .awaitCertificate s) :
    wp (S12.awaitCertificate env) s (fun new s' => s'.st = s.st ∧ Stage env new s')
      (fun _ s' => s'.st = s.st ∧ Stage env .awaitCertificate s') := by
  have hm := h.mid rfl
  have go : ∀ (st : SSt) (e : Eng) (s' : Ses SSt), mid st = true → Grow s.eng e → s'.eng = e → s'.random = s.random →
      s'.peerRandom = s.peerRandom → s'.kx = s.kx → Stage env st s' := by
    intro st e s' hst hg h1 h2 h3 h4
    obtain ⟨t, ht⟩ := hg.transcript
    exact stage_mid hst (hm.holds ⟨fun _ g => h2.trans g, h3, (by rw [h1]; exact hg.suite),
      (by rw [h1]; exact ⟨t, ht.symm⟩)⟩ (.inl h4))
  unfold S12.awaitCertificate
  simp only [bind_eq, pure_eq, wp_bind, wp_onEng]
  refine wp_mono (to_wp (R := fun e : Eng => Grow s.eng e) (nextHandshake_grow ..)) ?_ ?_
  · intro m e hg
    split
    · exact ⟨rfl, go _ e _ rfl hg rfl rfl rfl rfl⟩
    · split
      · exact ⟨rfl, go _ e _ rfl hg rfl rfl rfl rfl⟩
      · exact ⟨rfl, go _ e _ rfl hg rfl rfl rfl rfl⟩
    · exact ⟨rfl, go _ e _ rfl hg rfl rfl rfl rfl⟩
  · exact fun _ e hg => ⟨by trivial, go _ e _ rfl hg rfl rfl rfl rfl⟩

/-- After the premaster secret. -/
theorem finish_stage {s : Ses SSt} {cs seq : Nat} {body z pre : Bytes} (hcs : s.eng.suite = some cs) (hm : Mid env s) (hz : s.pms = some z)
    (ht : s.eng.transcript = pre ++ transcriptOf 16 body.length seq body)
    (hl : .consumed seq 16 body ∈ s.eng.log) (hsrc : ServerSource env s s.eng.transcript cs body z) :
    wp (S12.finishClientKx env cs) s (fun new s' => s'.st = s.st ∧ Stage env new s')
      (fun _ s' => s'.st = s.st ∧ Stage env .awaitClientKeyExchange s') := by
  have bad : ∀ s' : Ses SSt, s'.random = s.random → s'.peerRandom = s.peerRandom → s'.kx = s.kx →
      s'.eng.suite = s.eng.suite → s'.eng.transcript = s.eng.transcript → Stage env .awaitClientKeyExchange s' :=
    fun s' h1 h2 h3 h4 h5 => stage_mid rfl (hm.holds ⟨fun _ g => h1.trans g, h2, h4, by rw [h5]; exact List.prefix_refl _⟩
      (.inl h3))
  unfold S12.finishClientKx deriveMaster
  simp only [bind_eq, pure_eq, wp_bind, wp_get, wp_modify]
  refine wp_orPanic_of (fun cr _ => ?_) ⟨rfl, bad _ rfl rfl rfl rfl rfl⟩
  refine wp_orPanic_of (fun sr _ => ?_) ⟨rfl, bad _ rfl rfl rfl rfl rfl⟩
  refine wp_orFatal_of (fun z' hz' => ?_) ⟨rfl, bad _ rfl rfl rfl rfl rfl⟩
  have hz' : s.pms = some z' := hz'
  rw [hz] at hz'
  cases hz'
  refine wp_orFatal_of (fun m hm => ?_) ⟨rfl, bad _ rfl rfl rfl rfl rfl⟩
  refine wp_orFatal_of (fun k _ => ?_) ⟨rfl, bad _ rfl rfl rfl rfl rfl⟩
  refine ⟨rfl, stage_made (.inl (by split <;> rfl)) ⟨cs, s.eng.transcript, seq, body, z, m, hcs,
    ⟨⟨pre, seq, ht⟩, List.prefix_refl _⟩, hl, ?_, hm, rfl⟩ ?_⟩
  · exact source_holds (s := s) hsrc ⟨fun _ g => g, rfl, rfl, List.prefix_refl _⟩ rfl
  · split <;> nofun

theorem awaitClientKeyExchange_stage (s : Ses SSt) (h : Stage env .awaitClientKeyExchange s) :
    wp (S12.awaitClientKeyExchange env) s (fun new s' => s'.st = s.st ∧ Stage env new s')
      (fun _ s' => s'.st = s.st ∧ Stage env .awaitClientKeyExchange s') := by
  have hm := h.mid rfl
  unfold S12.awaitClientKeyExchange
  simp only [bind_eq, pure_eq, wp_bind, wp_onEng]
  refine wp_mono (nextHandshake_ok env.toEnv mtClientKeyExchange s.eng (by decide)) ?_ ?_
  · rintro m e ⟨hg, ⟨rfl, rfl⟩ | ⟨b, seq, body, rfl, hlog, hp, htr⟩⟩
    · exact ⟨rfl, h⟩
    obtain ⟨cs, x, hsu, rfl, hx⟩ := parseBody_clientKx hp
    have bad : ∀ s' : Ses SSt, s'.eng.suite = e.suite → s'.eng.transcript = e.transcript → s'.random = s.random →
        s'.peerRandom = s.peerRandom → (s'.kx = s.kx ∨ s'.kx = none) → Mid env s' := by
      intro s' h1 h2 h3 h4 h5
      exact hm.holds ⟨fun _ g => h3.trans g, h4, h1.trans hg.suite, by rw [h2]; exact ⟨_, htr.symm⟩⟩ h5
    have bad0 : Stage env .awaitClientKeyExchange { s with eng := e } :=
      stage_mid rfl (bad _ rfl rfl rfl rfl (.inl rfl))
    have hlog' : .consumed seq 16 body ∈ e.log := by rw [hlog]; exact List.mem_cons_self
    dsimp only
    simp only [wp_bind, wp_get]
    refine wp_orFatal_of (fun cs' hcs => ?_) ⟨rfl, bad0⟩
    have hcs : e.suite = some cs' := hcs
    rw [hg.suite, hsu] at hcs
    cases hcs
    have hcs : e.suite = some cs := hg.suite.trans hsu
    split
    · rename_i hpsk
      split
      · rename_i identity
        rw [wp_bind]
        unfold S12.clientKxPsk
        simp only [bind_eq, wp_bind]
        refine wp_orFatal_of (fun f hf => ?_) ⟨rfl, bad0⟩
        split
        · rename_i key hkey
          rw [wp_modify]
          refine finish_stage (pre := s.eng.transcript) (seq := seq) (body := body) hcs
            (bad _ rfl rfl rfl rfl (.inl rfl)) rfl htr hlog' ?_
          exact .inl ⟨hpsk, identity, f, hx, hf, .inl ⟨key, hkey, pskPms_eq key⟩⟩
        · rename_i hkey
          rw [wp_bind]
          unfold drawTick
          refine finish_stage (pre := s.eng.transcript) (seq := seq) (body := body) hcs
            (bad _ rfl rfl rfl rfl (.inl rfl)) rfl htr hlog' ?_
          exact .inl ⟨hpsk, identity, f, hx, hf, .inr ⟨hkey, rfl⟩⟩
      · exact ⟨rfl, bad0⟩
    · rename_i hpsk
      have hpsk : Config.isPsk cs = false := by simpa using hpsk
      split
      · rename_i pub
        rw [wp_bind]
        unfold S12.clientKxEcdh
        simp only [bind_eq, wp_bind, wp_get]
        refine wp_orFatal_of (fun kx hkx => ?_) ⟨rfl, bad0⟩
        obtain ⟨n, g⟩ := kx
        dsimp only
        simp only [wp_modify]
        refine wp_orFatal_of (fun z hz => ?_) ⟨rfl, stage_mid rfl (bad _ rfl rfl rfl rfl (.inr rfl))⟩
        refine finish_stage (pre := s.eng.transcript) (seq := seq) (body := body) hcs
          (bad _ rfl rfl rfl rfl (.inr rfl)) rfl htr hlog' ?_
        refine .inr ⟨hpsk, n, g, pub, hx, ?_, hz⟩
        obtain ⟨cs', k1, k2⟩ := hm
        rw [hsu] at k1
        cases k1
        exact share_holds (k2 hpsk n g hkx) ⟨fun _ g => g, rfl, hg.suite, ⟨_, htr.symm⟩⟩ ⟨_, htr.symm⟩
      · exact ⟨rfl, bad0⟩
  · intro _ e hg
    exact ⟨by trivial, stage_mid rfl (hm.holds (Near.rel.eng s e hg).holds (.inl rfl))⟩

/-- A Finished is only accepted if the pre-shared key is known. -/
theorem awaitFinished_valid (s : Ses SSt) : wp (S12.awaitFinished env) s
    (fun new s' => new = .awaitFinished ∨ s'.pskValid ≠ some false) (fun _ _ => True) := by
  unfold S12.awaitFinished
  simp only [bind_eq, pure_eq, wp_bind, wp_onEng]
  refine wp_mono (to_wp (R := fun _ => True) trivial) ?_ (fun _ _ _ => trivial)
  intro v e _
  refine wp_mono (to_wp (R := fun _ => True) trivial) ?_ (fun _ _ _ => trivial)
  intro m e2 _
  split
  · exact .inl rfl
  · rw [wp_bind]
    refine wp_check_of (fun _ => ?_) trivial
    rw [wp_bind, wp_get]
    split
    · trivial
    · rw [wp_bind]
      refine wp_check_of (fun hc => ?_) trivial
      rw [wp_pure]
      exact .inr (by simpa using hc)
  · trivial

theorem saga : Saga S12.role env (Stage env) (Done env) where
  later st s s' hl h := h.still hl.toLater hl.kxSame
  closed st s h := ⟨nofun, nofun, nofun, nofun, nofun⟩
  app s h := ⟨h.made rfl, h.accepted rfl⟩
  done s s' hl h := ⟨master_later h.master hl.toLater, by rw [hl.pskValid]; exact h.valid⟩
  step st s h := by
    show wp (S12.step env st) s _ _
    have hnext := Rets.wp (S12.step_next (env := env) st) s
    cases he : early st with
    | true =>
      have hk := early_keeps (env := env) st he s
      refine wp_mono (wp_and (to_wp (m := S12.step env st) (s := s)
        (R := fun s' => keying s' = keying s ∧ s'.st = s.st) hk) hnext) ?_ ?_
      · rintro new s' ⟨⟨g1, g2⟩, hn⟩
        exact ⟨g2, stage_early (next_early _ _ hn he) ((congrArg (·.2.2.1) g1).trans (h.early he))⟩
      · rintro _ s' ⟨⟨g1, g2⟩, _⟩
        exact ⟨g2, stage_early (.inl he) ((congrArg (·.2.2.1) g1).trans (h.early he))⟩
    | false =>
    cases hi : idle st with
    | true =>
      have hk := idle_keeps (env := env) st hi s
      have hc : mid st = true := by revert hi; cases st <;> decide
      refine wp_mono (wp_and (to_wp (m := S12.step env st) (s := s)
        (R := fun s' => keying s' = keying s ∧ s'.st = s.st ∧ Later s s') hk) hnext) ?_ ?_
      · rintro new s' ⟨⟨g1, g2, g3⟩, hn⟩
        exact ⟨g2, stage_mid (next_idle _ _ hn hi) ((h.mid hc).holds g3.toNear.holds (.inl (congrArg (·.2.1) g1)))⟩
      · rintro _ s' ⟨⟨g1, g2, g3⟩, _⟩
        exact ⟨g2, stage_mid hc ((h.mid hc).holds g3.toNear.holds (.inl (congrArg (·.2.1) g1)))⟩
    | false =>
    cases hm : made st with
    | true =>
      have hl : SFr Later (S12.step env st) := by
        refine S12.step_later st ?_ ?_ ?_
        all_goals (rintro rfl; exact absurd hm (by decide))
      have hv : wp (S12.step env st) s (fun new s' => st = .awaitFinished → new = .awaitFinished ∨
          s'.pskValid ≠ some false) (fun _ _ => True) := by
        by_cases hf : st = .awaitFinished
        · subst hf
          exact wp_mono (awaitFinished_valid s) (fun _ _ h _ => h) (fun _ _ h => h)
        · exact wp_mono (to_wp (R := fun _ => True) trivial) (fun _ _ _ g => absurd g hf) (fun _ _ h => h)
      refine wp_mono (wp_and (wp_and (SFr.wp hl s) hnext) hv) ?_ ?_
      · rintro new s' ⟨⟨⟨g1, g2⟩, hn⟩, g3⟩
        obtain ⟨n1, n2⟩ := next_made _ _ hn hm
        refine ⟨g2, stage_made n1 (master_later (h.made hm) g1) fun ha => ?_⟩
        rcases n2 ha with n | n
        · rcases g3 n with k | k
          · subst k; exact absurd ha (by decide)
          · exact k
        · rw [g1.pskValid]; exact h.accepted n
      · rintro _ s' ⟨⟨⟨g1, g2⟩, _⟩, _⟩
        exact ⟨g2, stage_made (.inl hm) (master_later (h.made hm) g1) fun ha => by
          rw [g1.pskValid]; exact h.accepted ha⟩
    | false =>
      cases st
      case sendServerKeyExchange => exact sendServerKeyExchange_stage s h
      case awaitCertificate => exact awaitCertificate_stage s h
      case awaitClientKeyExchange => exact awaitClientKeyExchange_stage s h
      case closed => exact ⟨rfl, h⟩
      all_goals first
        | exact absurd he (by decide)
        | exact absurd hi (by decide)
        | exact absurd hm (by decide)

theorem start_onTrack (cfg : Cfg) (now : Nat) : OnTrack S12.role (Stage env) (Done env) (S12.start env cfg now) :=
  ⟨stage_early (.inl rfl) rfl, nofun, nofun⟩

theorem onTrack (cfg : Cfg) (now : Nat) (cs : List Call) :
    OnTrack S12.role (Stage env) (Done env) (run S12.role env (S12.start env cfg now) cs).2 :=
  (Saga.stable S12.showRule (S12.roleOk env) saga).run _ cs (fun _ _ => trivial) (start_onTrack cfg now)

end Server

/-- **C73, server.** Once the keys are derived, and once Connected is reported, the server's master secret is
the extended master secret of the transcript up to the client's ClientKeyExchange and of the premaster secret that
goes with it: RFC 4279's for the resolver's key (once connected; before, the identity may be unknown), or the secret
the server's key exchange, whose share it sent in a signed ServerKeyExchange before, made of the client's share. -/
theorem server_master {env : PEnv} (cfg : Cfg) (now : Nat) (hd : DecShort env.toEnv) (cs : List Call) :
    let r := run S12.role env (S12.start env cfg now) cs
    (0 < (outputs r.1).count .connected + r.2.events.count .connected →
      ServerMaster env r.2 ∧ r.2.pskValid ≠ some false) ∧
    (r.2.st ∈ [SSt.awaitCertificateVerify, .awaitChangeCipherSpec, .awaitFinished, .sendChangeCipherSpec,
      .sendFinished, .awaitApplicationData] → ServerMaster env r.2) := by
  intro r
  constructor
  · intro g
    obtain ⟨p, hh⟩ := (Start.server (env := env) (cfg := cfg) now).hist hd cs
    have hc : (outputs r.1).count .connected + r.2.events.count .connected = if r.2.eng.release then 1 else 0 := hh.conn
    rw [hc] at g
    have hd := (Server.onTrack (env := env) cfg now cs).done (by
      cases hb : r.2.eng.release with
      | true => rfl
      | false => rw [hb] at g; exact absurd g (by decide))
    exact ⟨hd.master, hd.valid⟩
  · intro g
    refine (Server.onTrack cfg now cs).stage.made ?_
    exact (by intro x; cases x <;> decide : ∀ x : SSt, x ∈ [SSt.awaitCertificateVerify, .awaitChangeCipherSpec,
      .awaitFinished, .sendChangeCipherSpec, .sendFinished, .awaitApplicationData] → Server.made x = true) _ g

/-! ## Cases -/

open Demo

/-- A client and a server with certificates, and with a pre-shared key, connect, and both have the same session
hash and master secret. -/
theorem case_connected :
    (outputs (clientRun certEnv []).1).count .connected = 1 ∧ (outputs (serverRun certEnv []).1).count .connected = 1 ∧
    (clientRun certEnv []).2.sessionHash = (serverRun certEnv []).2.sessionHash ∧
    (clientRun certEnv []).2.eng.master = (serverRun certEnv []).2.eng.master ∧
    (outputs (clientRun pskEnv []).1).count .connected = 1 ∧ (outputs (serverRun pskEnv []).1).count .connected = 1 ∧
    (clientRun pskEnv []).2.eng.master = (serverRun pskEnv []).2.eng.master := by
  decide +kernel

/-! ## A second attempt to send the ServerKeyExchange

`maybe_init_key_exchange` (`src/dtls12/context.rs:118-136`) keeps the public key of the first key exchange, while
`init_ecdh_server` (`src/dtls12/context.rs:176-191`) has replaced the key exchange. -/

/-- Making a signature fails once: in the first attempt to send the ServerKeyExchange. -/
def flaky : PEnv := { chachaEnv with sign := fun n d h => if n = 5 then none else chachaEnv.sign n d h }

/-- The client talks, then the server, whose timer also runs. -/
def retried (d : Duo) : Duo :=
  let (c1, ps, cl) := drain C12.role flaky 30 d.client
  let sv := (run S12.role flaky d.server (ps.map .packet ++ [.timeout 1])).2
  let (c2, qs, sv) := drain S12.role flaky 30 sv
  let cl := (run C12.role flaky cl (qs.map .packet)).2
  { client := cl, server := sv, cCalls := d.cCalls ++ c1 ++ qs.map .packet,
    sCalls := d.sCalls ++ ps.map .packet ++ [.timeout 1] ++ c2 }

/-- The second attempt sends the share of the first key exchange with the key of the second. The client and the
server then have different master secrets. -/
theorem stale_share :
    let one := retried (duo0 flaky)
    let two := retried one
    one.server.st = .awaitClientKeyExchange ∧ one.server.kx = some (7, 29) ∧ flaky.kxStart 7 29 ≠ one.server.kxPub ∧
    flaky.kxStart 5 29 = one.server.kxPub ∧ two.server.eng.master ≠ none ∧ two.client.eng.master ≠ none ∧
    two.server.eng.master ≠ two.client.eng.master := by
  decide +kernel

end Verif.Props.Master12

import Verif.Lemmas.Saga13
/-!
# The transcript of a DTLS 1.3 session as a list of messages
-/
namespace Verif.E13
open Verif Wire Window Timer Aead M
open Verif.E12 (Call Event Output eventOutput outputs)

/-- A handshake message: type and body. -/
structure TMsg where
  t : UInt8
  body : Bytes
deriving DecidableEq, Repr

/-- A message as RFC 9147, 5.2 hashes it: with the header of TLS 1.3. -/
def TMsg.bytes (m : TMsg) : Bytes := m.t :: (beBytes 3 m.body.length ++ m.body)

/-- The messages one after the other. -/
def flat (ms : List TMsg) : Bytes := ms.flatMap TMsg.bytes

theorem flat_append (a b : List TMsg) : flat (a ++ b) = flat a ++ flat b := by simp [flat]

theorem flat_one (m : TMsg) : flat [m] = m.bytes := by simp [flat]

theorem transcriptOf_bytes (t : UInt8) (b : Bytes) : transcriptOf t b.length b = flat [⟨t, b⟩] := by
  simp [flat, TMsg.bytes, transcriptOf]

/-- A transcript below 16 MiB determines the messages in it. -/
theorem flat_inj : ∀ (ms ns : List TMsg), flat ms = flat ns → (flat ms).length < 2 ^ 24 → ms = ns := by
  intro ms
  induction ms with
  | nil =>
    intro ns h _
    cases ns with
    | nil => rfl
    | cons n ns => simp [flat, TMsg.bytes] at h
  | cons m ms ih =>
    intro ns h hl
    cases ns with
    | nil => simp [flat, TMsg.bytes] at h
    | cons n ns =>
      have hm : flat (m :: ms) = m.bytes ++ flat ms := rfl
      have hn : flat (n :: ns) = n.bytes ++ flat ns := rfl
      have hl' := hl
      rw [hm] at hl
      rw [h, hn] at hl'
      rw [hm, hn] at h
      simp only [TMsg.bytes, List.length_append, List.length_cons, beBytes_length] at hl hl'
      simp only [TMsg.bytes, List.cons_append, List.cons.injEq, List.append_assoc] at h
      obtain ⟨ht, h⟩ := h
      obtain ⟨h1, h⟩ := List.append_inj h (by simp only [beBytes_length])
      have hlen : m.body.length = n.body.length := by
        have := congrArg ofBe h1
        rwa [ofBe_beBytes, ofBe_beBytes, Nat.mod_eq_of_lt (by omega), Nat.mod_eq_of_lt (by omega)] at this
      obtain ⟨hb, h⟩ := List.append_inj h hlen
      rw [ih ns h (by omega), show m = n from by cases m; cases n; simp only at ht hb; rw [ht, hb]]

/-! ## Engines -/

/-- The suite stays and the transcript gets messages with types in `T`; with `X` the exporter secret stays
too. -/
structure Adds (X : Prop) (T : UInt8 → Prop) (e e' : Eng) : Prop where
  suite : e'.suite = e.suite
  exporter : X → e'.exporter = e.exporter
  adds : ∃ ms, e'.transcript = e.transcript ++ flat ms ∧ ∀ m ∈ ms, T m.t

variable {X : Prop} {T : UInt8 → Prop}

theorem Adds.refl (e : Eng) : Adds X T e e := ⟨rfl, fun _ => rfl, [], (List.append_nil _).symm, nofun⟩

theorem Adds.trans {a b c : Eng} (h : Adds X T a b) (g : Adds X T b c) : Adds X T a c := by
  obtain ⟨h1, h2, ms, h3, h4⟩ := h
  obtain ⟨g1, g2, ns, g3, g4⟩ := g
  refine ⟨g1.trans h1, fun x => (g2 x).trans (h2 x), ms ++ ns, by rw [g3, h3, flat_append, List.append_assoc], ?_⟩
  intro m hm
  rcases List.mem_append.mp hm with hm | hm
  · exact h4 m hm
  · exact g4 m hm

theorem Adds.weak {Y : Prop} {U : UInt8 → Prop} {e e' : Eng} (h : Adds X T e e') (hy : Y → X) (hu : ∀ t, T t → U t) :
    Adds Y U e e' := by
  obtain ⟨h1, h2, ms, h3, h4⟩ := h
  exact ⟨h1, fun y => h2 (hy y), ms, h3, fun m hm => hu _ (h4 m hm)⟩

theorem Adds.of {e e' : Eng} (h : Grow e e') (g : Hushed e e') : Adds X T e e' :=
  ⟨h.suite, fun _ => g.exporter, [], by rw [g.transcript]; exact (List.append_nil _).symm, nofun⟩

theorem Adds.same {e e' : Eng} (h1 : e'.suite = e.suite) (h2 : e'.exporter = e.exporter)
    (h3 : e'.transcript = e.transcript) : Adds X T e e' :=
  ⟨h1, fun _ => h2, [], by rw [h3]; exact (List.append_nil _).symm, nofun⟩

/-- `create_handshake` adds its message. -/
theorem createHandshake_msg (env : Env) (t : UInt8) (body : Bytes) (e : Eng) :
    (createHandshake env t body e).2.transcript = e.transcript ++ flat [⟨t, body⟩] ∧
    (createHandshake env t body e).2.exporter = e.exporter ∧
    (createHandshake env t body e).2.suite = e.suite := by
  have hg : (createHandshake env t body e).2.suite = e.suite := (createHandshake_tr env t body e).suite
  refine ⟨?_, ?_, hg⟩ <;>
  · unfold createHandshake
    dsimp only
    rw [transcriptOf_bytes]
    split
    · rfl
    · split
      · rfl
      · first
          | exact (fragmentLoop_hushed env _ _ _ _ _ _ _ _).transcript
          | exact (fragmentLoop_hushed env _ _ _ _ _ _ _ _).exporter

theorem createHandshake_adds (env : Env) (t : UInt8) (body : Bytes) (e : Eng) (ht : T t) :
    Adds X T e (createHandshake env t body e).2 := by
  obtain ⟨h1, h2, h3⟩ := createHandshake_msg env t body e
  exact ⟨h3, fun _ => h2, [⟨t, body⟩], h1, fun m hm => by rw [List.mem_singleton.mp hm]; exact ht⟩

theorem nextHandshakeWith_exporter (env : Env) (a i : Bool) (t : UInt8) (e : Eng) :
    (nextHandshakeWith env a i t e).2.exporter = e.exporter ∧ (i = false → (nextHandshakeWith env a i t e).2.transcript = e.transcript) := by
  unfold nextHandshakeWith
  split
  · exact ⟨rfl, fun _ => rfl⟩
  · split
    · exact ⟨rfl, fun _ => rfl⟩
    · unfold defragment
      dsimp only
      split
      · exact ⟨rfl, fun _ => rfl⟩
      · split
        · exact ⟨rfl, fun _ => rfl⟩
        · split
          · exact ⟨rfl, fun _ => rfl⟩
          · split
            · exact ⟨rfl, fun _ => rfl⟩
            · exact ⟨rfl, fun h => by subst h; rfl⟩

theorem nextHandshakeWith_adds (env : Env) (a : Bool) (t : UInt8) (e : Eng) (hu : isUnknownType t = false) (ht : T t) :
    Adds X T e (nextHandshakeWith env a true t e).2 := by
  have h1 := (nextHandshakeWith_exporter env a true t e).1
  refine of_wp (R := fun e' => e'.exporter = e.exporter → Adds X T e e')
    (wp_mono (nextHandshakeWith_ok env a t e hu) ?_ ?_) h1
  · rintro m e' ⟨g1, ⟨_, g2⟩ | ⟨b, seq, body, _, _, _, g2⟩⟩ hx
    · rw [g2]; exact .refl _
    · rw [transcriptOf_bytes] at g2
      exact ⟨g1.suite, fun _ => hx, _, g2, fun m hm => by rw [List.mem_singleton.mp hm]; exact ht⟩
  · rintro _ e' ⟨g1, _, g2⟩ hx
    exact .same g1.suite hx g2

theorem takeKeyUpdate_adds (env : Env) (a : Bool) (t : UInt8) (e : Eng) :
    Adds X T e (nextHandshakeWith env a false t e).2 := by
  obtain ⟨h1, h2⟩ := nextHandshakeWith_exporter env a false t e
  exact .same (nextHandshakeWith_grow env a false t e).suite h1 (h2 rfl)

/-! ## Sessions -/

section sessions
variable {St : Type}

/-- Connected and keying material waiting to be reported. -/
def toTell (s : Ses St) : List Event := s.events.filter (· ≠ .peerCert)

/-- A random that is there has 32 bytes. -/
def RandomLong (r : Option Bytes) : Prop := ∀ x, r = some x → x.length = 32

/-- What was negotiated and announced stays, and the transcript gets messages with types in `T`. -/
structure Onward (X : Prop) (T : UInt8 → Prop) (s s' : Ses St) : Prop where
  srtp : s'.srtp = s.srtp
  hsSecret : s'.hsSecret = s.hsSecret
  clientHs : s'.clientHs = s.clientHs
  serverHs : s'.serverHs = s.serverHs
  random : RandomLong s.random → RandomLong s'.random
  told : toTell s' = toTell s
  eng : Adds X T s.eng s'.eng

theorem Onward.refl (s : Ses St) : Onward X T s s := ⟨rfl, rfl, rfl, rfl, id, rfl, .refl _⟩

theorem Onward.trans {a b c : Ses St} (h : Onward X T a b) (g : Onward X T b c) : Onward X T a c :=
  ⟨g.1.trans h.1, g.2.trans h.2, g.3.trans h.3, g.4.trans h.4, g.5 ∘ h.5, g.6.trans h.6, h.7.trans g.7⟩

theorem Onward.mod {s s' : Ses St} (h1 : s'.srtp = s.srtp) (h2 : s'.hsSecret = s.hsSecret) (h3 : s'.clientHs = s.clientHs)
    (h4 : s'.serverHs = s.serverHs) (h5 : s'.random = s.random) (h6 : toTell s' = toTell s) (h7 : s'.eng = s.eng) :
    Onward X T s s' := ⟨h1, h2, h3, h4, by rw [h5]; exact id, h6, h7 ▸ .refl _⟩

theorem Onward.onEng {s : Ses St} {e : Eng} (h : Adds X T s.eng e) : Onward X T s { s with eng := e } :=
  ⟨rfl, rfl, rfl, rfl, id, rfl, h⟩

theorem Onward.put {s s' : Ses St} (h : Onward X T s s') (st : St) : Onward X T s { s' with st := st } :=
  ⟨h.1, h.2, h.3, h.4, h.5, h.6, h.7⟩

theorem Onward.weak {Y : Prop} {U : UInt8 → Prop} {s s' : Ses St} (h : Onward X T s s') (hy : Y → X) (hu : ∀ t, T t → U t) :
    Onward Y U s s' := ⟨h.1, h.2, h.3, h.4, h.5, h.6, h.7.weak hy hu⟩

/-- `m` relates the sessions before and after by `V`, and keeps the state. -/
structure Order (V : Ses St → Ses St → Prop) : Prop where
  refl : ∀ s, V s s
  trans : ∀ {a b c}, V a b → V b c → V a c

theorem Onward.order : Order (Onward (St := St) X T) := ⟨.refl, .trans⟩

variable {V : Ses St → Ses St → Prop} {α β : Type}

/-- `m` relates the sessions before and after by `V`, and keeps the state. -/
def VFr (V : Ses St → Ses St → Prop) {α : Type} (m : P St α) : Prop := ∀ s, V s (m s).2 ∧ (m s).2.st = s.st

theorem VFr.pure (h : Order V) (a : α) : VFr V (M.pure a : P St α) := fun s => ⟨h.refl s, rfl⟩
theorem VFr.get (h : Order V) : VFr V (M.get : P St (Ses St)) := fun s => ⟨h.refl s, rfl⟩
theorem VFr.fail (h : Order V) (f : Fault) : VFr V (M.fail f : P St α) := fun s => ⟨h.refl s, rfl⟩
theorem VFr.fatal (h : Order V) (e : Error) : VFr V (M.fatal e : P St α) := .fail h _
theorem VFr.transient (h : Order V) : VFr V (M.transient : P St α) := .fail h _
theorem VFr.panic (h : Order V) : VFr V (M.panic : P St α) := .fail h _
theorem VFr.bind (h : Order V) {m : P St α} {f : α → P St β} (h1 : VFr V m) (h2 : ∀ a, VFr V (f a)) :
    VFr V (M.bind m f) := by
  intro s
  rw [bind_snd]
  obtain ⟨g1, g2⟩ := h1 s
  split
  · obtain ⟨g3, g4⟩ := h2 _ (m s).2
    exact ⟨h.trans g1 g3, g4.trans g2⟩
  · exact ⟨g1, g2⟩
theorem VFr.modify {f : Ses St → Ses St} (h : ∀ s, V s (f s)) (hs : ∀ s, (f s).st = s.st) :
    VFr V (M.modify f) := fun s => ⟨h s, hs s⟩
theorem VFr.check (h : Order V) (c : Bool) (e : Error) : VFr V (check c e : P St Unit) := by
  unfold E13.check; split
  · exact .pure h _
  · exact .fatal h _
theorem VFr.orFatal (h : Order V) (o : Option α) (e : Error) : VFr V (orFatal o e : P St α) := by
  cases o
  · exact .fatal h _
  · exact .pure h _
theorem VFr.orPanic (h : Order V) (o : Option α) : VFr V (orPanic o : P St α) := by
  cases o
  · exact .panic h
  · exact .pure h _
theorem VFr.orTransient (h : Order V) (o : Option α) : VFr V (orTransient o : P St α) := by
  cases o
  · exact .transient h
  · exact .pure h _

theorem VFr.wp {m : P St α} (h : VFr V m) (s : Ses St) :
    wp m s (fun _ s' => V s s' ∧ s'.st = s.st) (fun _ s' => V s s' ∧ s'.st = s.st) :=
  to_wp (R := fun s' => V s s' ∧ s'.st = s.st) (h s)

theorem VFr.weak {W : Ses St → Ses St → Prop} {m : P St α} (h : VFr V m) (hw : ∀ a b, V a b → W a b) : VFr W m :=
  fun s => ⟨hw _ _ (h s).1, (h s).2⟩

/-- A relation that `Onward` implies. -/
structure Above (X : Prop) (T : UInt8 → Prop) (V : Ses St → Ses St → Prop) : Prop extends Order V where
  above : ∀ {s s'}, Onward X T s s' → V s s'

theorem Onward.over : Above X T (Onward (St := St) X T) := ⟨Onward.order, id⟩

theorem VFr.onEng (h : Above X T V) {m : E α} (hm : ∀ e, Adds X T e (m e).2) : VFr V (E13.onEng m : P St α) :=
  fun s => ⟨h.above (.onEng (hm s.eng)), rfl⟩
theorem VFr.onEng' (h : Above X T V) {f : Eng → Eng} (hf : ∀ e, Adds X T e (f e)) :
    VFr V (E13.onEng' f : P St Unit) := fun s => ⟨h.above (.onEng (hf s.eng)), rfl⟩
theorem VFr.calm (h : Above X T V) {m : E α} (h1 : GFr m) (h2 : CFr m) : VFr V (E13.onEng m : P St α) :=
  .onEng h fun e => .of (h1 e) (h2 e)
theorem VFr.drawTick (h : Above X T V) : VFr V (drawTick : P St Nat) :=
  fun _ => ⟨h.above (.onEng (.same rfl rfl rfl)), rfl⟩
theorem VFr.says (h : Above X T V) {env : Env} {t : UInt8} {b : Bytes} (ht : T t) :
    VFr V (E13.onEng (createHandshake env t b) : P St Unit) := .onEng h fun e => createHandshake_adds env t b e ht
theorem VFr.hears (h : Above X T V) {env : Env} {a : Bool} {t : UInt8} (hu : isUnknownType t = false) (ht : T t) :
    VFr V (E13.onEng (nextHandshakeWith env a true t) : P St (Option Body)) :=
  .onEng h fun e => nextHandshakeWith_adds env a t e hu ht
theorem VFr.mods (h : Above X T V) {f : Ses St → Ses St} (hf : ∀ s, Onward X T s (f s)) (hs : ∀ s, (f s).st = s.st) :
    VFr V (M.modify f) := .modify (fun s => h.above (hf s)) hs

theorem toTell_cert (s : Ses St) (l : List Bytes) :
    toTell { s with peerCerts := l, events := s.events ++ [.peerCert] } = toTell s := by
  unfold toTell
  rw [List.filter_append]
  simp

/-- Prove `VFr V` of a function by its syntax; `hf : Above X T V`. -/
macro "vfr" hf:ident : tactic => `(tactic|
  repeat' first
    | with_reducible exact VFr.pure ($hf).toOrder _
    | with_reducible exact VFr.get ($hf).toOrder
    | with_reducible exact VFr.fatal ($hf).toOrder _
    | with_reducible exact VFr.transient ($hf).toOrder
    | with_reducible exact VFr.panic ($hf).toOrder
    | with_reducible exact VFr.fail ($hf).toOrder _
    | with_reducible exact VFr.check ($hf).toOrder _ _
    | with_reducible exact VFr.orFatal ($hf).toOrder _ _
    | with_reducible exact VFr.orPanic ($hf).toOrder _
    | with_reducible exact VFr.orTransient ($hf).toOrder _
    | with_reducible exact VFr.drawTick $hf
    | with_reducible exact VFr.says $hf (by decide)
    | with_reducible exact VFr.hears $hf rfl (by decide)
    | with_reducible exact VFr.onEng $hf (takeKeyUpdate_adds _ _ _)
    | with_reducible exact VFr.calm $hf advancePeerSeq_grow advancePeerSeq_hushed
    | with_reducible exact VFr.calm $hf (createKeyUpdate_grow _ _) (createKeyUpdate_hushed _ _)
    | with_reducible exact VFr.calm $hf (updateRecvKeys_grow _) (updateRecvKeys_hushed _)
    | with_reducible exact VFr.calm $hf (sendAck_grow _) (sendAck_hushed _)
    | with_reducible exact VFr.calm $hf (sendAckRetransmittable_grow _) (sendAckRetransmittable_hushed _)
    | with_reducible exact VFr.calm $hf (installHandshakeKeys_grow _ _ _) (installHandshakeKeys_hushed _ _ _)
    | with_reducible exact VFr.calm $hf (installApplicationKeys_grow _ _ _) (installApplicationKeys_hushed _ _ _)
    | with_reducible exact VFr.calm $hf (enablePeerEncryption_grow _) (enablePeerEncryption_hushed _)
    | with_reducible exact VFr.calm $hf (createCipher_grow _ _ _ _ _) (createCipher_hushed _ _ _ _ _)
    | with_reducible exact VFr.onEng' $hf (fun e => Adds.same rfl rfl rfl)
    | (with_reducible refine VFr.mods $hf ?_ (fun _ => rfl)) <;>
        first | exact fun _ => Onward.mod rfl rfl rfl rfl rfl rfl rfl
              | exact fun _ => Onward.mod rfl rfl rfl rfl rfl (toTell_cert _ _) rfl
    | assumption
    | with_reducible refine VFr.bind ($hf).toOrder ?_ (fun _ => ?_)
    | split)

variable {env : PEnv}

theorem drainLoop_vfr (hf : Above X T V) (n : Nat) (l : List Bytes) : VFr V (drainLoop env n l : P St Unit) := by
  induction l with
  | nil => exact .pure hf.toOrder _
  | cons d rest ih => unfold drainLoop sendApp; simp only [bind_eq]; vfr hf

theorem drainQueued_vfr (hf : Above X T V) : VFr V (drainQueued env : P St Unit) := by
  intro s
  obtain ⟨h1, h2⟩ := drainLoop_vfr (env := env) hf s.eng.appEpoch s.queued { s with queued := [] }
  exact ⟨hf.trans (a := s) (b := { s with queued := [] }) (hf.above (.mod rfl rfl rfl rfl rfl rfl rfl)) h1, h2⟩

theorem app_vfr (hf : Above X T V) (a : St) : VFr V (awaitApplicationData env a) := by
  have h := drainQueued_vfr (env := env) hf
  unfold awaitApplicationData autoKeyUpdate respondKeyUpdate takeKeyUpdate
  simp only [bind_eq, pure_eq]
  vfr hf

theorem half_vfr (hf : Above X T V) (a b : St) : VFr V (halfClosedLocal env a b) := by
  unfold halfClosedLocal
  simp only [bind_eq, pure_eq]
  vfr hf

theorem certificateVerifyBody_vfr (hf : Above X T V) (b) : VFr V (certificateVerifyBody env b : P St Bytes) := by
  unfold certificateVerifyBody; simp only [bind_eq, pure_eq]; vfr hf

theorem computeVerify_vfr (hf : Above X T V) (b) : VFr V (computeVerify env b : P St Bytes) := by
  unfold computeVerify; simp only [bind_eq]; vfr hf

theorem installApplication_vfr (hf : Above False T V) : VFr V (installApplication env : P St Unit) := by
  have h : ∀ ex, VFr V (E13.onEng' fun e => { e with exporter := some ex } : P St Unit) := fun ex =>
    .onEng' hf fun e => ⟨rfl, False.elim, [], (List.append_nil _).symm, nofun⟩
  unfold installApplication; simp only [bind_eq]
  vfr hf
  exact h _

/-- A CertificateVerify is taken. -/
theorem awaitCertificateVerify_vfr (hf : Above X T V) (ht : T mtCertificateVerify) (l : Bytes) (a b : St) :
    VFr V (awaitCertificateVerify env l a b) := by
  have h : VFr V (onEng (nextHandshake env.toEnv mtCertificateVerify) : P St (Option Body)) := .hears hf rfl ht
  unfold awaitCertificateVerify
  simp only [bind_eq, pure_eq]
  vfr hf

/-! ## Before the handshake secrets -/

/-- What the first states leave alone: what was announced, and statements on transcript, SRTP profile and
suite. -/
structure Young (F : Bytes → Prop) (G : Option Nat → Prop) (H : Nat → Prop) (s s' : Ses St) : Prop where
  told : toTell s' = toTell s
  random : RandomLong s.random → RandomLong s'.random
  srtp : G s.srtp → G s'.srtp
  suite : (∀ cs, s.eng.suite = some cs → H cs) → ∀ cs, s'.eng.suite = some cs → H cs
  flat : F s.eng.transcript → F s'.eng.transcript

variable {F : Bytes → Prop} {G : Option Nat → Prop} {H : Nat → Prop}

theorem Young.over (hF : ∀ t ms, F t → (∀ m ∈ ms, T m.t) → F (t ++ E13.flat ms)) :
    Above False T (Young (St := St) F G H) where
  refl _ := ⟨rfl, id, id, id, id⟩
  trans h g := ⟨g.1.trans h.1, g.2 ∘ h.2, g.3 ∘ h.3, g.4 ∘ h.4, g.5 ∘ h.5⟩
  above h := ⟨h.told, h.random, by rw [h.srtp]; exact id, by rw [h.eng.suite]; exact id, fun hf => by
    obtain ⟨ms, h1, h2⟩ := h.eng.adds
    rw [h1]
    exact hF _ _ hf h2⟩

theorem Young.mod {s s' : Ses St} (h1 : toTell s' = toTell s) (h2 : s'.random = s.random)
    (h3 : s'.srtp = s.srtp) (h4 : s'.eng = s.eng) : Young F G H s s' :=
  ⟨h1, by rw [h2]; exact id, by rw [h3]; exact id, by rw [h4]; exact id, by rw [h4]; exact id⟩

theorem Young.same {s s' : Ses St} (h1 : toTell s' = toTell s) (h2 : s'.random = s.random)
    (h3 : s'.srtp = s.srtp) (h4 : s'.eng.suite = s.eng.suite) (h5 : s'.eng.transcript = s.eng.transcript) :
    Young F G H s s' :=
  ⟨h1, by rw [h2]; exact id, by rw [h3]; exact id, by rw [h4]; exact id, by rw [h5]; exact id⟩

theorem setSuite_young (n : Nat) (hn : H n) : VFr (Young F G H) (setSuite n : P St Unit) :=
  fun _ => ⟨⟨rfl, id, id, fun _ cs h => by cases h; exact hn, id⟩, rfl⟩

theorem resetForHelloRetry_young : VFr (Young F G H) (onEng' resetForHelloRetry : P St Unit) :=
  fun _ => ⟨.same rfl rfl rfl rfl rfl, rfl⟩

theorem installHandshake_young (hf : Above False T (Young (St := St) F G H)) (x : Bytes) :
    VFr (Young F G H) (installHandshake env x : P St Unit) := by
  unfold installHandshake
  simp only [bind_eq]
  vfr hf
  exact .modify (fun _ => .mod rfl rfl rfl rfl) fun _ => rfl

/-- Transcripts made of messages with types in `T`. -/
def Flat (T : UInt8 → Prop) (t : Bytes) : Prop := ∃ ms, t = E13.flat ms ∧ ∀ m ∈ ms, T m.t

theorem Flat.add (t : Bytes) (ms : List TMsg) (h : Flat T t) (hm : ∀ m ∈ ms, T m.t) : Flat T (t ++ E13.flat ms) := by
  obtain ⟨ns, rfl, hn⟩ := h
  refine ⟨ns ++ ms, (flat_append _ _).symm, fun m hm' => ?_⟩
  rcases List.mem_append.mp hm' with g | g
  · exact hn m g
  · exact hm m g

theorem Young.flats : Above False T (Young (St := St) (Flat T) G H) := Young.over Flat.add

/-- With no message added, nothing need be known of the transcript. -/
theorem Young.quiet : Above False (fun _ => False) (Young (St := St) F G H) := by
  refine Young.over fun t ms h hm => ?_
  cases ms with
  | nil => rw [show t ++ E13.flat [] = t from List.append_nil _]; exact h
  | cons m ms => exact (hm m List.mem_cons_self).elim

/-- What follows a part of the transcript stays a list of messages when that part is replaced. -/
theorem replaceTranscript_young (n : Nat) (h254 : T 0xFE) (s : Ses St) (hF : Flat T (s.eng.transcript.drop n)) :
    Young (Flat T) G H s (onEng (replaceTranscript env.toEnv n) s : _ × Ses St).2 ∧
    (onEng (replaceTranscript env.toEnv n) s : _ × Ses St).2.st = s.st := by
  refine ⟨?_, rfl⟩
  show Young (Flat T) G H s { s with eng := (replaceTranscript env.toEnv n s.eng).2 }
  unfold replaceTranscript
  split
  · exact ⟨rfl, id, id, id, id⟩
  · split
    · exact ⟨rfl, id, id, id, id⟩
    · refine ⟨rfl, id, id, id, fun _ => ?_⟩
      dsimp only
      rw [transcriptOf_bytes]
      obtain ⟨ms, h1, h2⟩ := hF
      rw [h1, ← flat_append]
      refine ⟨_, rfl, fun m hm => ?_⟩
      rcases List.mem_append.mp hm with g | g
      · rw [List.mem_singleton.mp g]; exact h254
      · exact h2 m g

end sessions
end Verif.E13

import Verif.Lemmas.Sound13
import Verif.Props.Safe13
/-!
# Handshake operations of a DTLS 1.3 engine that do not panic

What an engine needs for the operations of the handshake to succeed or to fail with an error, and what they leave
of it. The one panic that remains is the overflow of the saved records.
-/
namespace Verif.E13
open Verif Wire Window Timer Aead M
open Verif.E12 (Call SearchOk Bad bad_fail Ret)

/-- What is known of an engine at some state: its suite is set; it has no application keys to receive with; the
peer's encryption is off. -/
structure Lvl where
  known : Bool
  bare : Bool
  clear : Bool

/-- An engine at a level with room for `b` messages both ways. -/
structure Fit (env : Env) (l : Lvl) (b : Nat) (e : Eng) : Prop where
  sound : Steady env e
  known : l.known = true → e.suite ≠ none
  next : e.nextSeq + b ≤ 65535
  peer : e.peerSeq + b ≤ 65535
  recv : l.bare = true → e.appRecv = []
  low : ∀ x ∈ e.appRecv.map (·.epoch), x < 65535
  clear : l.clear = true → e.peerEnc = false
  prov : Prov env e .idle

/-- How an operation may fail: after an error nothing is said; after an error that is not reported, `T`. -/
def Ends {σ : Type} (saved : σ → List Entry) (T : σ → Prop) : Fault → σ → Prop
  | .transient, s => T s
  | .fatal _, _ => True
  | .panic, s => 12 ≤ (saved s).length
  | .diverge, _ => False

section
variable {env : Env} {l : Lvl} {b : Nat} {α β : Type}

abbrev EEnds (T : Eng → Prop) : Fault → Eng → Prop := Ends Eng.saved T

theorem Fit.sim {e e' : Eng} (h : Fit env l b e) (g : Sim e e') (hp : Prov env e' .idle) : Fit env l b e' := by
  refine ⟨h.sound.sim g, fun hk => by rw [g.suite]; exact h.known hk, by rw [g.next]; exact h.next,
    by rw [g.peer]; exact h.peer, fun hk => ?_, by rw [g.recv]; exact h.low, fun hk => by rw [g.enc]; exact h.clear hk, hp⟩
  have := g.recv
  rw [h.recv hk] at this
  exact List.map_eq_nil_iff.mp this

theorem Fit.tag {e : Eng} (h : Fit env l b e) (hk : l.known = true) : ∃ cs t, e.suite = some cs ∧ e.tag env = some t :=
  h.sound.known (h.known hk)

theorem Fit.less {e : Eng} {c : Nat} (h : Fit env l b e) (hc : c ≤ b) : Fit env l c e :=
  ⟨h.sound, h.known, by have := h.next; omega, by have := h.peer; omega, h.recv, h.low, h.clear, h.prov⟩

/-- Asking for less. -/
theorem Fit.weaken {e : Eng} {l' : Lvl} (h : Fit env l b e) (h1 : l'.known = true → l.known = true)
    (h2 : l'.bare = true → l.bare = true) (h3 : l'.clear = true → l.clear = true) : Fit env l' b e :=
  ⟨h.sound, fun k => h.known (h1 k), h.next, h.peer, fun k => h.recv (h2 k), h.low, fun k => h.clear (h3 k), h.prov⟩

/-- A mild operation. -/
theorem Fit.mild {m : E α} (hm : Mild env m) {e : Eng} (h : Fit env l b e) (hp : Prov env (m e).2 .idle) :
    wp m e (fun _ e' => Fit env l b e') (EEnds fun e' => Fit env l b e') := by
  obtain ⟨h1, h2⟩ := hm e h.sound
  have hf := h.sim h2 hp
  refine wp_of (fun a e' he => ?_) fun f e' he => ?_
  · rw [he] at hf; exact hf
  · rw [he] at hf h1
    cases f with
    | transient => exact hf
    | fatal _ => trivial
    | panic => exact absurd trivial h1
    | diverge => exact absurd trivial h1

theorem Fit.packet (hs : SearchOk env.search) (p : Bytes) {e : Eng} (h : Fit env l b e) :
    wp (parsePacket env p) e (fun _ e' => Fit env l b e') (EEnds fun e' => Fit env l b e') :=
  h.mild (parsePacket_mild hs p) (prov_keep (keys := true) ((rx_apiFrame env true false).packet e p) h.prov)

theorem Fit.timeout (n : Nat) {e : Eng} (h : Fit env l b e) :
    wp (handleTimeout env n) e (fun _ e' => Fit env l b e') (EEnds fun e' => Fit env l b e') :=
  h.mild (handleTimeout_mild n) (prov_keep (keys := true) ((rx_apiFrame env true false).timeout e n) h.prov)

/-! ## Messages taken -/

/-- Type of a parsed message. -/
def Body.kind : Body → Option UInt8
  | .clientHello _ => some mtClientHello
  | .serverHello _ => some mtServerHello
  | .encryptedExtensions _ => some mtEncryptedExtensions
  | .certificate _ _ => some mtCertificate
  | .certificateRequest _ => some mtCertificateRequest
  | .certificateVerify _ _ => some mtCertificateVerify
  | .finished _ => some mtFinished
  | .keyUpdate _ => some mtKeyUpdate
  | .unknown _ => none

theorem parseBody_kind {a : Bool} {t : UInt8} {su : Option Nat} {body left : Bytes} {x : Body}
    (ht : t ∈ [mtClientHello, mtServerHello, mtEncryptedExtensions, mtCertificate, mtCertificateRequest, mtCertificateVerify,
      mtFinished]) (h : parseBody env a t su body = some (left, x)) : x.kind = some t := by
  simp only [List.mem_cons, List.not_mem_nil, or_false] at ht
  rcases ht with rfl | rfl | rfl | rfl | rfl | rfl | rfl <;>
    simp (decide := true) only [parseBody, reduceIte, Option.map_eq_some_iff, Option.bind_eq_some_iff] at h
  · obtain ⟨_, _, h⟩ := h; cases h; rfl
  · obtain ⟨_, _, h⟩ := h; cases h; rfl
  · obtain ⟨_, _, h⟩ := h; cases h; rfl
  · obtain ⟨_, _, h⟩ := h; cases h; rfl
  · cases h; rfl
  · obtain ⟨_, _, h⟩ := h; cases h; rfl
  · obtain ⟨_, _, _, _, h⟩ := h; cases h; rfl

theorem Fit.taken {a i : Bool} {t : UInt8} (ht : t ∈ [mtClientHello, mtServerHello, mtEncryptedExtensions, mtCertificate,
      mtCertificateRequest, mtCertificateVerify, mtFinished]) {e : Eng} (h : Fit env l b e) :
    wp (nextHandshakeWith env a i t) e
      (fun m e' => Fit env l b e' ∧ e.transcript.length ≤ e'.transcript.length ∧ ∀ x, m = some x → x.kind = some t)
      (EEnds fun e' => Fit env l b e') := by
  have hp := prov_keep ((rx_frame env true).next e a i t) h.prov
  have hq : ∀ r, nextHandshakeWith env a i t e = r → Prov env r.2 .idle := fun r hr => hr ▸ hp
  by_cases hc : hasComplete e t = true
  · have hn : nextHandshakeWith env a i t e = match nextView e.rx with
        | [] => (.fail .panic, e)
        | first :: rest => defragment env a i first rest e := by
      unfold nextHandshakeWith; rw [if_neg (by simp [hc])]; rfl
    cases hv : nextView e.rx with
    | nil =>
      exfalso
      unfold hasComplete at hc
      split at hc
      · cases hc
      · rename_i f r hcv
        obtain ⟨more, hm | hm⟩ := completeView_prefix e.rx
        · rw [hv, hcv] at hm; cases hm
        · rw [hm] at hcv; cases hcv
    | cons first rest =>
      rw [hv] at hn
      dsimp only at hn
      have hf := first_of (s := e) (first := first) (rest := rest) hc hv
      unfold defragment at hn
      dsimp only at hn
      split at hn
      · exact wp_failed hn h
      · split at hn
        · exact wp_failed hn h
        · split at hn
          · exact wp_failed hn (h.sim ⟨rfl, rfl, rfl, rfl, rfl, rfl, rfl, .inr rfl⟩ (hq _ hn))
          · rename_i left x hb
            split at hn
            · exact wp_failed hn (h.sim ⟨rfl, rfl, rfl, rfl, rfl, rfl, rfl, .inr rfl⟩ (hq _ hn))
            · rw [hf.2] at hb
              have hx := parseBody_kind ht hb
              refine wp_done hn ⟨h.sim ⟨rfl, rfl, rfl, rfl, rfl, rfl, rfl, .inr rfl⟩ (hq _ hn), ?_, ?_⟩
              · show e.transcript.length ≤ (if i = true then _ else e.transcript).length
                split
                · rw [List.length_append]; omega
                · exact Nat.le_refl _
              · intro y hy; cases hy; exact hx
  · have hn : nextHandshakeWith env a i t e = (.ok none, e) := by
      unfold nextHandshakeWith
      rw [if_pos (by simpa using hc)]
    exact wp_done hn ⟨h, Nat.le_refl _, nofun⟩

theorem Fit.advance {e : Eng} (h : Fit env l (b + 1) e) :
    wp advancePeerSeq e (fun _ e' => Fit env l b e') (EEnds fun _ => False) := by
  have hn : ¬ e.peerSeq ≥ 65535 := by have := h.peer; omega
  have hr : advancePeerSeq e = (.ok (), { e with peerSeq := e.peerSeq + 1, log := .accepted e.peerSeq :: e.log }) := by
    unfold advancePeerSeq; rw [if_neg hn]
  have hp := prov_keep ((rx_frame env true).advance e) h.prov
  rw [hr] at hp
  refine wp_done hr ⟨⟨h.sound.tagged, h.sound.saved, h.sound.enc, h.sound.ku, h.sound.keys⟩, h.known, ?_, ?_, h.recv, h.low, h.clear, hp⟩
  · show e.nextSeq + b ≤ 65535
    have := h.next; omega
  · show e.peerSeq + 1 + b ≤ 65535
    have := h.peer; omega

/-! ## Messages sent -/

/-- What sending adds: one more saved record. -/
structure Saves (ep : Nat) (e e' : Eng) : Prop where
  suite : e'.suite = e.suite
  enc : e'.peerEnc = e.peerEnc
  next : e'.nextSeq = e.nextSeq
  peer : e'.peerSeq = e.peerSeq
  ku : e'.kuInFlight = e.kuInFlight
  hs : e'.hsSend = e.hsSend
  recv : e'.appRecv = e.appRecv
  saved : ∃ l, e'.saved.map (·.epoch) = e.saved.map (·.epoch) ++ l ∧ ∀ x ∈ l, x = ep

theorem Saves.refl (ep : Nat) (e : Eng) : Saves ep e e := ⟨rfl, rfl, rfl, rfl, rfl, rfl, rfl, [], by simp, nofun⟩

theorem Saves.trans {ep : Nat} {x y z : Eng} (h : Saves ep x y) (g : Saves ep y z) : Saves ep x z := by
  obtain ⟨l1, h1, h2⟩ := h.saved
  obtain ⟨l2, g1, g2⟩ := g.saved
  refine ⟨g.suite.trans h.suite, g.enc.trans h.enc, g.next.trans h.next, g.peer.trans h.peer, g.ku.trans h.ku, g.hs.trans h.hs,
    g.recv.trans h.recv, l1 ++ l2, by rw [g1, h1, List.append_assoc], ?_⟩
  intro x hx
  rcases List.mem_append.mp hx with hx | hx
  · exact h2 x hx
  · exact g2 x hx

theorem Steady.saves {ep : Nat} {e e' : Eng} (h : Steady env e) (g : Saves ep e e') (hep : ep = 0 ∨ e.suite ≠ none) :
    Steady env e' := by
  refine ⟨fun cs hc => h.tagged cs (by rw [← g.suite]; exact hc), ?_, fun he => by rw [g.suite]; exact h.enc (by rw [← g.enc]; exact he),
    g.ku.trans h.ku, fun hk => by rw [g.suite]; exact h.keys (by rw [← g.hs]; exact hk)⟩
  rw [g.suite]
  rcases h.saved with h1 | h1
  · rcases hep with hep | hep
    · left
      obtain ⟨l, g1, g2⟩ := g.saved
      intro x hx
      have hm : x.epoch ∈ e.saved.map (·.epoch) ++ l := g1 ▸ List.mem_map_of_mem hx
      rcases List.mem_append.mp hm with hm | hm
      · obtain ⟨y, hy, hye⟩ := List.mem_map.mp hm
        rw [← hye]; exact h1 y hy
      · rw [g2 _ hm]; exact hep
    · exact .inr hep
  · exact .inr h1

theorem Fit.saves {ep : Nat} {e e' : Eng} (h : Fit env l b e) (g : Saves ep e e') (hep : ep = 0 ∨ e.suite ≠ none)
    (hp : Prov env e' .idle) : Fit env l b e' :=
  ⟨h.sound.saves g hep, fun hk => by rw [g.suite]; exact h.known hk, by rw [g.next]; exact h.next,
    by rw [g.peer]; exact h.peer, fun hk => by rw [g.recv]; exact h.recv hk, by rw [g.recv]; exact h.low,
    fun hk => by rw [g.enc]; exact h.clear hk, hp⟩

theorem pushWire_saves (e : Eng) (a x ep) : Saves ep e (pushWire e a x) ∧ (pushWire e a x).saved = e.saved := by
  unfold pushWire
  split <;> exact ⟨⟨rfl, rfl, rfl, rfl, rfl, rfl, rfl, [], by simp, nofun⟩, rfl⟩

theorem countSent_saves (e : Eng) (sl ep' ep) : Saves ep e (countSent e sl ep') ∧ (countSent e sl ep').saved = e.saved := by
  unfold countSent
  cases sl
  · exact ⟨⟨rfl, rfl, rfl, rfl, rfl, rfl, rfl, [], by simp, nofun⟩, rfl⟩
  · exact ⟨⟨rfl, rfl, rfl, rfl, rfl, rfl, rfl, [], by simp, nofun⟩, rfl⟩
  · simp only
    split <;> exact ⟨⟨rfl, rfl, rfl, rfl, rfl, rfl, rfl, [], by simp, nofun⟩, rfl⟩

theorem Saves.log {ep : Nat} {e e' : Eng} (h : Saves ep e e') (lg) : Saves ep e { e' with log := lg } :=
  ⟨h.suite, h.enc, h.next, h.peer, h.ku, h.hs, h.recv, h.saved⟩

/-- A saved record: one more, or the array was full. -/
def Pushes (ep : Nat) (m : E Unit) (e : Eng) : Prop :=
  wp m e (fun _ e' => Saves ep e e' ∧ e'.saved.length = e.saved.length + 1 ∧ e.saved.length < 12) (EEnds fun _ => False)

theorem queueCipher_saves (suite sl k c ep f ct) (e : Eng) :
    wp (queueCipher env suite sl k c ep f ct) e (fun _ e' => Saves ep e e' ∧ e'.saved = e.saved) (EEnds fun _ => False) := by
  unfold wp queueCipher
  simp only
  split
  · rename_i heq
    split at heq
    · cases heq
    · split at heq
      · cases heq
      · cases heq
        obtain ⟨a1, a2⟩ := countSent_saves e sl ep ep
        obtain ⟨b1, b2⟩ := pushWire_saves (countSent e sl ep) (canAppend e (5 + ct.length))
          (maskSeq (snMaskOf env suite k.sn ct) (serializeCipher13 ep (e.slotSeq sl) (ct.length % 65536) ct)) ep
        exact ⟨(a1.trans b1).log _, b2.trans a2⟩
  · rename_i heq
    split at heq
    · cases heq; trivial
    · split at heq
      · cases heq; trivial
      · cases heq

theorem wp_at {σ : Type} {m m' : M σ α} {e e' : σ} {Q : α → σ → Prop} {F : Fault → σ → Prop} (h : m e = m' e')
    (g : wp m' e' Q F) : wp m e Q F := by
  unfold wp at g ⊢
  rw [h]; exact g

theorem sealCipher_saves {e : Eng} (h : ∃ cs t, e.suite = some cs ∧ e.tag env = some t) (c ep f) :
    wp (sealCipher env c ep f) e (fun _ e' => Saves ep e e' ∧ e'.saved = e.saved) (EEnds fun _ => False) := by
  obtain ⟨cs, t, h1, h2⟩ := h
  have hx : ∃ r, sealCipher env c ep f e = r := ⟨_, rfl⟩
  obtain ⟨r, hx⟩ := hx
  have hx' := hx
  unfold sealCipher at hx'
  split at hx'
  · split at hx'
    · exact wp_failed (hx.trans hx'.symm) trivial
    · simp only at hx'
      split at hx'
      · exact wp_failed (hx.trans hx'.symm) trivial
      · refine wp_at (hx.trans hx'.symm) (wp_mono (queueCipher_saves _ _ _ _ _ _ _ _) ?_ (fun _ _ h => h))
        rintro _ e' ⟨g1, g2⟩
        exact ⟨((Saves.refl ep e).log _).trans g1, g2⟩
  · rename_i h
    exact (h cs t h1 h2).elim

theorem createCipher_pushes {e : Eng} (h : ∃ cs t, e.suite = some cs ∧ e.tag env = some t) (c ep f) :
    Pushes ep (createCipher env c ep true f) e := by
  unfold Pushes
  by_cases hl : e.saved.length ≥ 12
  · have hx : createCipher env c ep true f e = (.fail .panic, e) := by
      unfold createCipher saveEntry
      simp only [if_true]
      rw [if_pos hl]
    exact wp_failed hx hl
  · have hx : ∃ x : Entry, x.epoch = ep ∧
        createCipher env c ep true f e = sealCipher env c ep f { e with saved := e.saved ++ [x] } := by
      refine ⟨{ ctype := c, epoch := ep, sendSeq := e.slotSeq (e.slot ep), fragment := f, acked := false }, rfl, ?_⟩
      unfold createCipher saveEntry
      simp only [if_true]
      rw [if_neg hl]
    obtain ⟨x, hxe, hx⟩ := hx
    have hs : Saves ep e { e with saved := e.saved ++ [x] } :=
      ⟨rfl, rfl, rfl, rfl, rfl, rfl, rfl, [ep], by simp [hxe], fun y hy => by simpa using hy⟩
    refine wp_at hx (wp_mono (sealCipher_saves (env := env) (e := { e with saved := e.saved ++ [x] }) h c ep f) ?_
      (fun _ _ h => h))
    rintro _ e' ⟨g1, g2⟩
    exact ⟨hs.trans g1, by rw [g2]; simp, by omega⟩

theorem createPlain_pushes (c f) (e : Eng) : Pushes 0 (createPlain c true f) e := by
  unfold Pushes
  by_cases hl : e.saved.length ≥ 12
  · have hx : createPlain c true f e = (.fail .panic, e) := by
      unfold createPlain saveEntry
      simp only [if_true]
      rw [if_pos hl]
    exact wp_failed hx hl
  · have hs : ∀ x : Entry, x.epoch = 0 → Saves 0 e { e with saved := e.saved ++ [x] } := fun x hx =>
      ⟨rfl, rfl, rfl, rfl, rfl, rfl, rfl, [0], by simp [hx], fun y hy => by simpa using hy⟩
    unfold wp createPlain saveEntry
    simp only [if_true]
    rw [if_neg hl]
    simp only
    split
    · rename_i heq
      split at heq
      · cases heq
      · split at heq
        · cases heq
        · cases heq
          unfold emitPlain
          simp only
          obtain ⟨b1, b2⟩ := pushWire_saves
            { e with saved := e.saved ++ [{ ctype := c, epoch := 0, sendSeq := e.seq0, fragment := f, acked := false }] }
            (canAppend { e with saved := e.saved ++ [{ ctype := c, epoch := 0, sendSeq := e.seq0, fragment := f, acked := false }] }
              (13 + f.length)) (serializePlain13 c 0 e.seq0 (f.length % 65536) f) 0
          have := (hs _ rfl).trans b1
          exact ⟨⟨this.suite, this.enc, this.next, this.peer, this.ku, this.hs, this.recv, this.saved⟩, by rw [b2]; simp, by omega⟩
    · rename_i heq
      split at heq
      · cases heq; trivial
      · split at heq
        · cases heq; trivial
        · cases heq

theorem createHsRecord_pushes {e : Eng} {ep : Nat} (h : ep = 0 ∨ ∃ cs t, e.suite = some cs ∧ e.tag env = some t) (f) :
    Pushes ep (createHsRecord env ep f) e := by
  unfold createHsRecord
  by_cases hz : ep = 0
  · rw [if_pos hz, hz]; exact createPlain_pushes _ _ _
  · rw [if_neg hz]; exact createCipher_pushes (h.resolve_left hz) _ _ _

theorem fragmentLoop_saves (t : UInt8) (seq ep fixed : Nat) (body : Bytes) (n off : Nat) {e : Eng}
    (hn : 13 ≤ n + e.saved.length) (hl : 1 ≤ n)
    (h : ep = 0 ∨ ∃ cs t, e.suite = some cs ∧ e.tag env = some t) :
    wp (fragmentLoop env t seq ep fixed body n off) e (fun _ e' => Saves ep e e') (EEnds fun _ => False) := by
  induction n generalizing e off with
  | zero => omega
  | succ n ih =>
    unfold fragmentLoop
    split
    · rw [wp_bind, wp_get, wp_bind]
      refine wp_mono (createHsRecord_pushes h _) ?_ (fun _ _ h => h)
      rintro _ e1 ⟨h1, h2, h3⟩
      split
      · exact h1
      · refine wp_mono (ih _ (by omega) (by omega) ?_) (fun _ e2 h3 => h1.trans h3) (fun _ _ h => h)
        rcases h with h | ⟨cs, t, g1, g2⟩
        · exact .inl h
        · refine .inr ⟨cs, t, h1.suite.trans g1, ?_⟩
          unfold Eng.tag at g2 ⊢
          rw [h1.suite]; exact g2
    · exact .refl ep e

theorem Fit.handshake {t : UInt8} (body : Bytes) {e : Eng} (h : Fit env l (b + 1) e) (hk : msgEpoch t = 0 ∨ l.known = true) :
    wp (createHandshake env t body) e (fun _ e' => Fit env l b e') (EEnds fun _ => False) := by
  have hp := prov_keep ((rx_frame env true).handshake e t body) h.prov
  have hn : ¬ e.nextSeq ≥ 65535 := by have := h.next; omega
  have htag : msgEpoch t = 0 ∨ ∃ cs t, e.suite = some cs ∧ e.tag env = some t := hk.imp id h.tag
  have hx : ∃ fixed, createHandshake env t body e = fragmentLoop env t e.nextSeq (msgEpoch t) fixed body (body.length + 14) 0
      { e with transcript := e.transcript ++ transcriptOf t body.length body, nextSeq := e.nextSeq + 1 } := by
    unfold createHandshake
    simp only
    rw [if_neg hn]
    by_cases hz : msgEpoch t = 0
    · rw [if_pos hz]; exact ⟨_, rfl⟩
    · obtain ⟨cs, tg, _, h2⟩ := htag.resolve_left hz
      rw [if_neg hz, h2]; exact ⟨_, rfl⟩
  obtain ⟨fixed, hx⟩ := hx
  have h0 : Fit env l b { e with transcript := e.transcript ++ transcriptOf t body.length body, nextSeq := e.nextSeq + 1 } := by
    refine ⟨⟨h.sound.tagged, h.sound.saved, h.sound.enc, h.sound.ku, h.sound.keys⟩, h.known, ?_, ?_, h.recv, h.low, h.clear,
      h.prov.same rfl rfl rfl⟩
    · show e.nextSeq + 1 + b ≤ 65535
      have := h.next; omega
    · show e.peerSeq + b ≤ 65535
      have := h.peer; omega
  rw [hx] at hp
  refine wp_at hx ?_
  refine wp_mono (wp_and (fragmentLoop_saves (env := env) t e.nextSeq (msgEpoch t) fixed body (body.length + 14) 0
    (e := { e with transcript := e.transcript ++ transcriptOf t body.length body, nextSeq := e.nextSeq + 1 })
    (by omega) (by omega) htag) (to_wp (R := fun e' => Prov env e' .idle) hp)) ?_ (fun _ _ h => h.1)
  rintro _ e' ⟨g1, g2⟩
  refine h0.saves g1 ?_ g2
  rcases htag with h | ⟨cs, t, h, _⟩
  · exact .inl h
  · exact .inr (by rw [show ({ e with transcript := _, nextSeq := _ } : Eng).suite = e.suite from rfl, h]; nofun)

/-! ## Keys and the rest -/

theorem Fit.setSuite (hs : SuitesKnown env) {cs : Nat} (hc : env.allowed.contains cs = true) {e : Eng} (h : Fit env l b e) :
    Fit env { l with known := true } b { e with suite := some cs } := by
  refine ⟨⟨?_, .inr nofun, nofun, h.sound.ku, nofun⟩, nofun, h.next, h.peer, h.recv, h.low, h.clear, h.prov.same rfl rfl rfl⟩
  intro c hc'
  cases hc'
  exact Option.isSome_iff_exists.mp (hs cs hc)

theorem Fit.begin {e : Eng} (h : Fit env l b e) : Fit env l b (flightBegin env e) :=
  h.sim ⟨rfl, rfl, rfl, rfl, rfl, rfl, rfl, .inl rfl⟩ (h.prov.same rfl rfl rfl)

theorem Fit.stop {e : Eng} (h : Fit env l b e) : Fit env l b (flightStop e) :=
  h.sim ⟨rfl, rfl, rfl, rfl, rfl, rfl, rfl, .inr rfl⟩ (h.prov.same rfl rfl rfl)

theorem Fit.tick {e : Eng} (h : Fit env l b e) : Fit env l b { e with tick := e.tick + 1 } :=
  h.sim ⟨rfl, rfl, rfl, rfl, rfl, rfl, rfl, .inr rfl⟩ (h.prov.same rfl rfl rfl)

theorem Fit.exporter {e : Eng} (h : Fit env l b e) (x) : Fit env l b { e with exporter := x } :=
  h.sim ⟨rfl, rfl, rfl, rfl, rfl, rfl, rfl, .inr rfl⟩ (h.prov.same rfl rfl rfl)

theorem Fit.transcript {e : Eng} (h : Fit env l b e) (x) : Fit env l b { e with transcript := x } :=
  h.sim ⟨rfl, rfl, rfl, rfl, rfl, rfl, rfl, .inr rfl⟩ (h.prov.same rfl rfl rfl)

theorem Fit.retry {e : Eng} (h : Fit env l b e) : Fit env l b (resetForHelloRetry e) :=
  h.sim ⟨rfl, rfl, rfl, rfl, rfl, rfl, rfl, .inr rfl⟩ (prov_keep ((rx_keyFrame env).retry e) h.prov)

theorem Fit.release {e : Eng} (h : Fit env l b e) : Fit env l b (releaseAppData e) :=
  h.sim ⟨rfl, rfl, rfl, rfl, rfl, rfl, rfl, .inr rfl⟩ (prov_keep ((rx_keyFrame env).release e) h.prov)

theorem Fit.retain {e : Eng} (h : Fit env l b e) : Fit env l b (releaseRetaining e) :=
  h.sim ⟨rfl, rfl, rfl, rfl, rfl, rfl, rfl, .inr rfl⟩ (prov_keep ((rx_keyFrame env).retain e) h.prov)

theorem Fit.replace {e : Eng} (h : Fit env l b e) (hk : l.known = true) {n : Nat} (hn : n ≤ e.transcript.length) :
    wp (replaceTranscript env n) e (fun _ e' => Fit env l b e') (EEnds fun _ => False) := by
  obtain ⟨cs, _, h1, _⟩ := h.tag hk
  have hx : ∃ x, replaceTranscript env n e = (.ok (), { e with transcript := x }) := by
    unfold replaceTranscript
    split
    · rename_i hs; rw [h1] at hs; cases hs
    · rw [if_neg (by omega)]
      exact ⟨_, rfl⟩
  obtain ⟨x, hx⟩ := hx
  exact wp_done hx (h.transcript x)

theorem Fit.derive {e : Eng} (h : ∃ cs t, e.suite = some cs ∧ e.tag env = some t) (x : Bytes) :
    wp (deriveEpochKeys env x) e (fun _ e' => e' = e) (EEnds fun _ => False) := by
  obtain ⟨cs, t, h1, h2⟩ := h
  cases hk : env.epochKeys cs x with
  | none =>
    refine wp_failed (f := .fatal .crypto) (s' := e) ?_ trivial
    unfold deriveEpochKeys
    rw [h1, h2]
    simp only [hk]
  | some k =>
    refine wp_done (a := k) (s' := e) ?_ rfl
    unfold deriveEpochKeys
    rw [h1, h2]
    simp only [hk]

theorem Fit.hsKeys {e : Eng} (h : Fit env l b e) (hk : l.known = true) (x y : Bytes) :
    wp (installHandshakeKeys env x y) e (fun _ e' => Fit env l b e') (EEnds fun _ => False) := by
  have ht := h.tag hk
  unfold installHandshakeKeys
  simp only [wp_bind, wp_get, wp_modify]
  refine wp_mono (Fit.derive ht _) ?_ (fun _ _ h => h)
  rintro k e1 rfl
  refine wp_mono (Fit.derive (e := { e1 with hsSend := some k }) ht _) ?_ (fun _ _ h => h)
  rintro k' e2 rfl
  exact ⟨⟨h.sound.tagged, h.sound.saved, h.sound.enc, h.sound.ku, fun _ => h.known hk⟩, h.known, h.next, h.peer, h.recv, h.low,
    h.clear, h.prov.same rfl rfl rfl⟩

theorem Fit.appKeys {e : Eng} (h : Fit env l b e) (hk : l.known = true) (hb : l.bare = true) (x y : Bytes) :
    wp (installApplicationKeys env x y) e (fun _ e' => Fit env { l with bare := false } b e') (EEnds fun _ => False) := by
  have ht := h.tag hk
  have hr := h.recv hb
  unfold installApplicationKeys
  simp only [wp_bind, wp_get, wp_modify]
  refine wp_mono (Fit.derive ht _) ?_ (fun _ _ h => h)
  rintro k e1 rfl
  refine wp_mono (Fit.derive (e := { e1 with appSend := some k }) ht _) ?_ (fun _ _ h => h)
  rintro k' e2 rfl
  rw [if_neg (by simp [hr])]
  refine ⟨⟨h.sound.tagged, h.sound.saved, h.sound.enc, h.sound.ku, fun _ => h.known hk⟩, h.known, h.next, h.peer, nofun, ?_,
    h.clear, h.prov.same rfl rfl rfl⟩
  intro z hz
  simp only [hr, List.nil_append, List.map_cons, List.map_nil, List.mem_cons, List.not_mem_nil, or_false] at hz
  omega

theorem Fit.enable (hs : SearchOk env.search) {e : Eng} (h : Fit env l b e) (hk : l.known = true) (hc : l.clear = true) :
    wp (enablePeerEncryption env) e (fun _ e' => Fit env { l with clear := false } b e') (EEnds fun _ => False) := by
  have hp := prov_keep ((rx_keyFrame env).enablePeer e) h.prov
  have hnt := enable_nt h.prov (h.clear hc)
  have h0 : ∀ rx, Steady env { e with peerEnc := true, rx := rx } := fun _ =>
    ⟨h.sound.tagged, h.sound.saved, fun _ => h.known hk, h.sound.ku, h.sound.keys⟩
  have hx : ∃ bs rx, enablePeerEncryption env e = reparse env bs { e with peerEnc := true, rx := rx } := by
    unfold enablePeerEncryption
    simp only
    split
    · exact ⟨[], e.rx, rfl⟩
    · exact ⟨_, _, rfl⟩
  obtain ⟨bs, rx, hx⟩ := hx
  obtain ⟨m1, m2⟩ := reparse_mild hs bs _ (h0 rx)
  have hf : Fit env { l with clear := false } b (enablePeerEncryption env e).2 := by
    have hrec : (enablePeerEncryption env e).2.appRecv.map (·.epoch) = e.appRecv.map (·.epoch) := by rw [hx]; exact m2.recv
    refine ⟨by rw [hx]; exact (h0 rx).sim m2, fun hk => ?_, ?_, ?_, fun hb => ?_, by rw [hrec]; exact h.low, nofun, hp⟩
    · rw [hx, m2.suite]; exact h.known hk
    · rw [hx, m2.next]; exact h.next
    · rw [hx, m2.peer]; exact h.peer
    · rw [h.recv hb] at hrec
      exact List.map_eq_nil_iff.mp hrec
  rw [← hx] at m1
  refine wp_of (fun _ e' he => ?_) fun f e' he => ?_
  · rw [he] at hf; exact hf
  · rw [he] at m1 hnt
    cases f with
    | transient => exact absurd rfl hnt
    | fatal _ => trivial
    | panic => exact absurd trivial m1
    | diverge => exact absurd trivial m1

theorem Fit.ackFinal {e : Eng} (h : Fit env l b e) (hk : l.known = true) :
    wp (sendAckRetransmittable env) e (fun _ e' => Fit env l b e') (EEnds fun _ => False) := by
  have hp := prov_keep ((rx_frame env true).ackFinal e) h.prov
  by_cases hr : e.received.isEmpty = true
  · have hx : sendAckRetransmittable env e = (.ok (), e) := by
      unfold sendAckRetransmittable sendAckInner
      rw [if_pos hr, if_pos hr]
    exact wp_done hx h
  · have hx : ∃ ep bd, sendAckRetransmittable env e = createCipher env ctAck ep true bd { e with saved := [], received := [] } := by
      unfold sendAckRetransmittable sendAckInner
      rw [if_neg hr, if_neg hr]
      exact ⟨_, _, rfl⟩
    obtain ⟨ep, bd, hx⟩ := hx
    have h0 : Fit env l b { e with saved := [], received := [] } :=
      h.sim ⟨rfl, rfl, rfl, rfl, rfl, rfl, rfl, .inl rfl⟩ (h.prov.same rfl rfl rfl)
    rw [hx] at hp
    refine wp_at hx (wp_mono (wp_and (createCipher_pushes (env := env) (e := { e with saved := [], received := [] }) (h.tag hk) ctAck ep bd)
      (to_wp (R := fun e' => Prov env e' .idle) hp)) ?_ (fun _ _ h => h.1))
    rintro _ e' ⟨g1, g2⟩
    exact h0.saves g1.1 (.inr (h.known hk)) g2

/-- Enough room for the connected state. -/
theorem Fit.room {e : Eng} (h : Fit env l (b + 2) e) (hk : l.known = true) : Room env 2 e.gauge := by
  refine ⟨?_, ?_, ?_, h.low⟩
  · obtain ⟨cs, t, h1, h2⟩ := h.tag hk
    refine ⟨cs, t, h1, ?_⟩
    unfold Eng.tag at h2
    rw [h1] at h2
    exact h2
  · show e.nextSeq + 2 ≤ 65535
    have := h.next; omega
  · show e.peerSeq < 65535
    have := h.peer; omega

end
end Verif.E13

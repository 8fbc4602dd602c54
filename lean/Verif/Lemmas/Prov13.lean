import Verif.Lemmas.Queue13
/-!
# Where the records held and delivered by a DTLS 1.3 engine come from
-/
namespace Verif.E13
open Verif Wire Window Timer Aead M
open Verif.E12 (insertAt Call)

/-- Headers and bodies of handshake fragments. -/
def hbs (l : List Hs) : List (HsHeader × Bytes) := l.map fun h => (h.header, h.body)

/-- A record that was opened: some opening in the log has its content, type and number. -/
def WasOpened (log : List Ev) (r : Rec13) : Prop :=
  ∃ k nonce aad cipher plain, Ev.opened k nonce aad cipher plain r.epoch r.seq ∈ log ∧
    recoverInner plain = some (r.ctype, r.fragment)

/-- A record that was kept as it came. -/
def WasClear (enc : Bool) (buffer : Bytes) (r : Rec13) : Prop :=
  split13 buffer = ([buffer], .done) ∧ (∃ rest, parse13 buffer = .ok rest r) ∧
    (isCiphertextHeader (flagsOf buffer) = true → enc = true → r.epoch < 2)

/-- What is known about a record held. -/
structure Held (s : Eng) (x : Rx) : Prop where
  hss : hbs x.hss = hbs (recHss x.rcd)
  opened : x.opened = true → WasOpened s.log x.rcd
  clear : x.opened = false → WasClear s.peerEnc x.buffer x.rcd

/-- What is known about the records held and delivered. -/
structure Prov (env : Env) (s : Eng) (h : Hand) : Prop where
  held : ∀ x ∈ recs s h, Held s x
  ok : ∀ k n a c p e q, Ev.opened k n a c p e q ∈ s.log → n = nonceXor k.iv q ∧ env.dec k.key n a c = some p
  del : ∀ r o, Ev.delivered r o ∈ s.log → r.ctype = ctAppData ∧ (o = true → WasOpened s.log r) ∧
    (o = false → ∃ b, WasClear true b r)
  early : s.peerEnc = false → ∀ k n a c p e q, Ev.opened k n a c p e q ∉ s.log

theorem WasOpened.mono {l l' : List Ev} {r : Rec13} (h : WasOpened l r)
    (hl : ∀ k n a c p e q, Ev.opened k n a c p e q ∈ l → Ev.opened k n a c p e q ∈ l') : WasOpened l' r := by
  obtain ⟨k, n, a, c, p, h1, h2⟩ := h
  exact ⟨k, n, a, c, p, hl _ _ _ _ _ _ _ h1, h2⟩

theorem Held.mark {s s' : Eng} {x x' : Rx} (h : Held s x) (m : Mark x x')
    (hl : ∀ k n a c p e q, Ev.opened k n a c p e q ∈ s.log → Ev.opened k n a c p e q ∈ s'.log)
    (hp : s'.peerEnc = s.peerEnc ∨ x'.rcd.epoch < 2) : Held s' x' := by
  refine ⟨?_, ?_, ?_⟩
  · rw [m.rcd, ← h.hss]; exact m.hss
  · rw [m.opened, m.rcd]; exact fun ho => (h.opened ho).mono hl
  · intro ho
    rw [m.opened] at ho
    obtain ⟨h1, h2, h3⟩ := h.clear ho
    rw [m.buffer, m.rcd]
    refine ⟨h1, h2, ?_⟩
    rw [m.rcd] at hp
    rcases hp with hp | hp
    · rw [hp]; exact h3
    · exact fun _ _ => hp

theorem openedSt_same (s : Eng) (b r k ep sq pl) :
    (openedSt s b r k ep sq pl).rx = s.rx ∧ (openedSt s b r k ep sq pl).peerEnc = s.peerEnc ∧
    (openedSt s b r k ep sq pl).closeSeq = s.closeSeq ∧ (openedSt s b r k ep sq pl).release = s.release ∧
    (openedSt s b r k ep sq pl).hsRecv = s.hsRecv ∧ (openedSt s b r k ep sq pl).peerSeq = s.peerSeq ∧
    (openedSt s b r k ep sq pl).cfg = s.cfg ∧ (openedSt s b r k ep sq pl).suite = s.suite ∧
    (openedSt s b r k ep sq pl).closeReported = s.closeReported ∧
    (openedSt s b r k ep sq pl).log =
      .opened k (nonceXor k.iv sq) (b.take r.headerLen) (b.drop r.headerLen) pl ep sq :: s.log := by
  unfold openedSt noteOpened Eng.replayUpdate
  split <;> trivial

theorem isRx_opened {l l' : List Ev} (h : ∀ e ∈ l.filter Ev.isRx, e ∈ l'.filter Ev.isRx) :
    ∀ e ∈ l, e.isRx = true → e ∈ l' :=
  fun e h1 h2 => (List.mem_filter.mp (h e (List.mem_filter.mpr ⟨h1, h2⟩))).1

theorem Prov.step {env : Env} {poll : Bool} {s s' : Eng} {h h' : Hand} (g : QStep env poll (s, h) (s', h'))
    (hj : poll = true → s.release = true → s.peerEnc = true) (p : Prov env s h) : Prov env s' h' := by
  have add : ∀ (b : Bytes) (r : Rec13) (k : Keys) (ep sq : Nat) (pl : Bytes) (l : List Rx),
      (∃ sl tag, Opens env s sl b r tag k ep sq pl) → (∀ x ∈ s.rx.flatten ++ l, Held (openedSt s b r k ep sq pl) x) →
      ∀ c, Prov env (openedSt s b r k ep sq pl) (.busy c l) := by
    intro b r k ep sq pl l ⟨sl, tag, ho⟩ hx c
    obtain ⟨e1, e2, _, _, _, _, _, _, _, e3⟩ := openedSt_same s b r k ep sq pl
    refine ⟨?_, ?_, ?_, ?_⟩
    · unfold recs Hand.recs; rw [e1]; exact hx
    · rw [e3]
      intro k' n a c p' e q hm
      rcases List.mem_cons.mp hm with hm | hm
      · cases hm; exact ⟨rfl, ho.dec⟩
      · exact p.ok _ _ _ _ _ _ _ hm
    · rw [e3]
      intro r' o hm
      rcases List.mem_cons.mp hm with hm | hm
      · cases hm
      · obtain ⟨g1, g2, g3⟩ := p.del r' o hm
        exact ⟨g1, fun h => (g2 h).mono fun _ _ _ _ _ _ _ => List.mem_cons_of_mem _, g3⟩
    · rw [e2, ho.enc]; exact fun h => nomatch h
  have up : ∀ (b : Bytes) (r : Rec13) (k : Keys) (ep sq : Nat) (pl : Bytes) (x : Rx), Held s x →
      Held (openedSt s b r k ep sq pl) x := by
    intro b r k ep sq pl x hx
    obtain ⟨e1, e2, _, _, _, _, _, _, _, e3⟩ := openedSt_same s b r k ep sq pl
    refine hx.mark (.refl x) ?_ (.inl e2)
    rw [e3]
    exact fun _ _ _ _ _ _ _ => List.mem_cons_of_mem _
  cases g with
  | less hl h1 h2 h3 =>
    have hup := isRx_opened h2
    have hdn : ∀ e ∈ s'.log, e.isRx = true → e ∈ s.log ∨ (∃ q t b, e = .taken q t b) ∨ ∃ q, e = .accepted q := by
      intro e he hr
      rcases h1 e (List.mem_filter.mpr ⟨he, hr⟩) with h | h
      · exact .inl (List.mem_filter.mp h).1
      · exact .inr h
    have hup' : ∀ k n a c p e q, Ev.opened k n a c p e q ∈ s.log → Ev.opened k n a c p e q ∈ s'.log :=
      fun k n a c p e q hm => hup _ hm rfl
    have hdn' : ∀ k n a c p e q, Ev.opened k n a c p e q ∈ s'.log → Ev.opened k n a c p e q ∈ s.log := by
      intro k n a c p e q hm
      rcases hdn _ hm rfl with h | ⟨_, _, _, h⟩ | ⟨_, h⟩
      · exact h
      · cases h
      · cases h
    refine ⟨?_, ?_, ?_, ?_⟩
    · intro x' hx'
      obtain ⟨x, hx, m⟩ := hl.mem hx'
      refine (p.held x hx).mark m hup' ?_
      rcases h3 with h3 | ⟨_, h3⟩
      · exact .inl h3
      · exact .inr (h3 _ hx')
    · exact fun k n a c pl e q hm => p.ok k n a c pl e q (hdn' _ _ _ _ _ _ _ hm)
    · intro r o hm
      have hm' : Ev.delivered r o ∈ s.log := by
        rcases hdn _ hm rfl with h | ⟨_, _, _, h⟩ | ⟨_, h⟩
        · exact h
        · cases h
        · cases h
      obtain ⟨g1, g2, g3⟩ := p.del r o hm'
      exact ⟨g1, fun ho => (g2 ho).mono hup', g3⟩
    · intro he k n a c pl e q hm
      refine p.early ?_ k n a c pl e q (hdn' _ _ _ _ _ _ _ hm)
      rcases h3 with h3 | ⟨h3, _⟩
      · rw [← h3]; exact he
      · rw [h3] at he; cases he
  | noted ho => exact add _ _ _ _ _ _ _ ⟨_, _, ho⟩ (fun x hx => up _ _ _ _ _ _ x (p.held x hx)) _
  | @opened _ _ l sl b r tag k ep sq pl ct content ho hr =>
    refine add _ _ _ _ _ _ _ ⟨_, _, ho⟩ ?_ _
    intro x hx
    rw [← List.append_assoc] at hx
    rcases List.mem_append.mp hx with hx | hx
    · exact up _ _ _ _ _ _ x (p.held x hx)
    · rw [List.mem_singleton] at hx
      subst hx
      refine ⟨rfl, fun _ => ?_, fun h => nomatch h⟩
      obtain ⟨_, _, _, _, _, _, _, _, _, e3⟩ := openedSt_same s b r k ep sq pl
      rw [e3]
      exact ⟨k, _, _, _, pl, List.mem_cons_self, hr⟩
  | @plain _ c l sl rest r h1 h2 h3 =>
    refine ⟨?_, p.ok, p.del, p.early⟩
    intro x hx
    unfold recs Hand.recs at hx
    rw [← List.append_assoc] at hx
    rcases List.mem_append.mp hx with hx | hx
    · exact p.held x hx
    · rw [List.mem_singleton] at hx
      subst hx
      refine ⟨rfl, (fun h => nomatch h), fun _ => ⟨h3, ⟨rest, h1⟩, ?_⟩⟩
      intro hc he
      have hc' : isCiphertextHeader (flagsOf sl) = true := hc
      rw [hc', he] at h2
      cases h2
  | @deliver _ r h0 h1 h2 =>
    have hup' : ∀ k n a c p e q, Ev.opened k n a c p e q ∈ s.log →
        Ev.opened k n a c p e q ∈ (Ev.delivered r.rcd r.opened :: s.log) :=
      fun _ _ _ _ _ _ _ => List.mem_cons_of_mem _
    obtain ⟨a, b, g1, g2, g3, g4, g5⟩ := nextApp_split h2
    have hr := p.held r (by unfold recs; rw [g1]; simp)
    refine ⟨?_, ?_, ?_, ?_⟩
    · intro x hx
      have hl : Less (recs s .idle) ((markApp s.rx).flatten ++ Hand.idle.recs) := by
        refine ⟨_, .refl _, ?_⟩
        unfold recs
        rw [g1, g2]
        exact (((Fewer.refl a).append (.keep (mark_handled r) (.refl b)))).append (.refl _)
      obtain ⟨y, hy, m⟩ := hl.mem hx
      exact (p.held y hy).mark m hup' (.inl rfl)
    · intro k n a c pl e q hm
      rcases List.mem_cons.mp hm with hm | hm
      · cases hm
      · exact p.ok k n a c pl e q hm
    · intro r' o hm
      rcases List.mem_cons.mp hm with hm | hm
      · cases hm
        refine ⟨g3, fun ho => (hr.opened ho).mono hup', fun ho => ⟨r.buffer, ?_⟩⟩
        have := hr.clear ho
        rwa [hj h0 h1] at this
      · obtain ⟨g1, g2, g3⟩ := p.del r' o hm
        exact ⟨g1, fun ho => (g2 ho).mono hup', g3⟩
    · intro he k n a c pl e q hm
      rcases List.mem_cons.mp hm with hm | hm
      · cases hm
      · exact p.early he k n a c pl e q hm

/-! ## Receive keys -/

/-- Keys of application epochs: the first come from some secret, the others each from the one before. -/
inductive AppKey (env : Env) : Nat → Keys → Prop
  | first {suite x k} : env.epochKeys suite x = some k → AppKey env 3 k
  | next {e k suite x k'} : AppKey env e k → env.nextSecret suite k.secret = some x →
      env.epochKeys suite x = some k' → AppKey env (e + 1) k'

theorem AppKey.le {env : Env} {e : Nat} {k : Keys} (h : AppKey env e k) : 3 ≤ e := by
  induction h with
  | first _ => exact Nat.le_refl _
  | next _ _ _ ih => exact Nat.le_succ_of_le ih

/-- Receive keys held, and receive keys used so far. -/
structure KeyInv (env : Env) (s : Eng) : Prop where
  app : ∀ r ∈ s.appRecv, AppKey env r.epoch r.keys
  hs : ∀ k, s.hsRecv = some k → ∃ suite x, env.epochKeys suite x = some k
  used : ∀ k n a c p e q, Ev.opened k n a c p e q ∈ s.log →
    (e = 2 ∧ ∃ suite x, env.epochKeys suite x = some k) ∨ AppKey env e k

theorem updateFirst_mem {ep : Nat} {f : RecvEpoch → RecvEpoch} {l : List RecvEpoch} {r : RecvEpoch}
    (h : r ∈ updateFirst ep f l) : r ∈ l ∨ ∃ r0 ∈ l, r0.epoch = ep ∧ r = f r0 := by
  induction l with
  | nil => exact .inl h
  | cons x l ih =>
    unfold updateFirst at h
    split at h
    · rename_i hx
      rcases List.mem_cons.mp h with rfl | h
      · exact .inr ⟨x, by simp, hx, rfl⟩
      · exact .inl (by simp [h])
    · rcases List.mem_cons.mp h with rfl | h
      · exact .inl (by simp)
      · rcases ih h with h | ⟨r0, h1, h2⟩
        · exact .inl (by simp [h])
        · exact .inr ⟨r0, by simp [h1], h2⟩

theorem replayUpdate_app {s : Eng} {ep sq : Nat} {r : RecvEpoch} (h : r ∈ (s.replayUpdate ep sq).appRecv) :
    ∃ r0 ∈ s.appRecv, r.epoch = r0.epoch ∧ r.keys = r0.keys := by
  unfold Eng.replayUpdate at h
  split at h
  · exact ⟨r, h, rfl, rfl⟩
  · rcases updateFirst_mem h with h | ⟨r0, h1, _, rfl⟩
    · exact ⟨r, h, rfl, rfl⟩
    · exact ⟨r0, h1, rfl, rfl⟩

theorem KeyInv.quiet {env : Env} {s s' : Eng} (h : KeyInv env s) (h1 : s'.appRecv = s.appRecv)
    (h2 : s'.hsRecv = s.hsRecv ∨ s'.hsRecv = none)
    (h3 : ∀ k n a c p e q, Ev.opened k n a c p e q ∈ s'.log → Ev.opened k n a c p e q ∈ s.log) : KeyInv env s' := by
  refine ⟨by rw [h1]; exact h.app, ?_, fun k n a c p e q hm => h.used k n a c p e q (h3 _ _ _ _ _ _ _ hm)⟩
  rcases h2 with h2 | h2 <;> rw [h2]
  · exact h.hs
  · exact fun _ h => nomatch h

theorem recvKeys_key {env : Env} {s : Eng} (h : KeyInv env s) {e : Nat} {k : Keys} (hk : s.recvKeys e = some k) :
    (e = 2 ∧ ∃ suite x, env.epochKeys suite x = some k) ∨ AppKey env e k := by
  unfold Eng.recvKeys at hk
  split at hk
  · rename_i h2
    exact .inl ⟨h2, h.hs k hk⟩
  · obtain ⟨r, h1, h2⟩ := Option.map_eq_some_iff.mp hk
    have h3 := List.find?_some h1
    have h4 := List.mem_of_find?_eq_some h1
    rw [← h2]
    have : r.epoch = e := by simpa using h3
    exact .inr (this ▸ h.app r h4)

theorem KeyInv.step {env : Env} {keys poll : Bool} {s s' : Eng} {a a' : Hand}
    (g : RStep env keys poll (s, a) (s', a')) (h : KeyInv env s) : KeyInv env s' := by
  have opn : ∀ {sl b r tag k ep sq pl}, Opens env s sl b r tag k ep sq pl →
      KeyInv env (openedSt s b r k ep sq pl) := by
    intro sl b r tag k ep sq pl ho
    obtain ⟨_, _, _, _, e1, _, _, _, _, e3⟩ := openedSt_same s b r k ep sq pl
    refine ⟨?_, by rw [e1]; exact h.hs, ?_⟩
    · intro x hx
      obtain ⟨r0, h1, h2, h3⟩ := replayUpdate_app (s := s) (ep := ep) (sq := sq) (r := x) hx
      rw [h2, h3]; exact h.app r0 h1
    · rw [e3]
      intro k' n a c p' e q hm
      rcases List.mem_cons.mp hm with hm | hm
      · cases hm
        exact recvKeys_key h ho.keyed
      · exact h.used _ _ _ _ _ _ _ hm
  have log1 : ∀ x : Ev, (∀ k n a c p e q, x ≠ .opened k n a c p e q) → ∀ k n a c p e q,
      Ev.opened k n a c p e q ∈ x :: s.log → Ev.opened k n a c p e q ∈ s.log := by
    intro x hx k n a c p e q hm
    rcases List.mem_cons.mp hm with hm | hm
    · exact absurd hm.symm (hx _ _ _ _ _ _ _)
    · exact hm
  have id' : ∀ k n a c p e q, Ev.opened k n a c p e q ∈ s.log → Ev.opened k n a c p e q ∈ s.log :=
    fun _ _ _ _ _ _ _ h => h
  cases g with
  | other g =>
    refine h.quiet (congrArg RxPart.appRecv g) (.inl (congrArg RxPart.hsRecv g)) ?_
    intro k n a c p e q hm
    have hl : s'.log.filter Ev.isRx = s.log.filter Ev.isRx := congrArg RxPart.log g
    have : Ev.opened k n a c p e q ∈ s'.log.filter Ev.isRx := List.mem_filter.mpr ⟨hm, rfl⟩
    rw [hl] at this
    exact (List.mem_filter.mp this).1
  | arrive => exact h
  | noted ho => exact opn ho
  | opened ho hr => exact opn ho
  | plain h1 h2 h3 => exact h
  | drop hs => exact h
  | close => exact h.quiet rfl (.inl rfl) id'
  | done => exact h
  | insert i _ _ _ _ => exact h.quiet rfl (.inl rfl) id'
  | replace _ _ _ _ _ _ => exact h.quiet rfl (.inl rfl) id'
  | enable i _ _ hi => exact h.quiet rfl (.inl rfl) id'
  | marked _ => exact h.quiet rfl (.inl rfl) id'
  | taken _ => exact h.quiet rfl (.inl rfl) (log1 _ (by intros; nofun))
  | accepted _ => exact h.quiet rfl (.inl rfl) (log1 _ (by intros; nofun))
  | release _ _ => exact h.quiet rfl (.inr rfl) id'
  | retain _ _ => exact h.quiet rfl (.inl rfl) id'
  | suite _ => exact h.quiet rfl (.inl rfl) id'
  | hsRecv _ hk => exact ⟨h.app, fun k e => by cases e; exact ⟨_, _, hk⟩, h.used⟩
  | appRecv _ hk _ =>
    refine ⟨?_, h.hs, h.used⟩
    intro r hr
    rcases List.mem_append.mp hr with hr | hr
    · exact h.app r hr
    · rw [List.mem_singleton] at hr; subst hr; exact .first hk
  | newRecv hl _ hs hn hk =>
    refine ⟨?_, h.hs, h.used⟩
    intro r hr
    rcases List.mem_append.mp hr with hr | hr
    · refine h.app r ?_
      split at hr
      · exact List.mem_of_mem_drop hr
      · exact hr
    · rw [List.mem_singleton] at hr; subst hr
      exact .next (h.app _ (List.mem_of_getLast? hl)) hn hk
  | retry _ => exact h.quiet rfl (.inl rfl) id'
  | purge _ => exact h.quiet rfl (.inl rfl) id'
  | deliver _ _ _ => exact h.quiet rfl (.inl rfl) (log1 _ (by intros; nofun))
  | reported => exact h.quiet rfl (.inl rfl) id'

end Verif.E13

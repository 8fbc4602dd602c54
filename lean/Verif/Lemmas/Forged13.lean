import Verif.Lemmas.Close13
import Verif.Lemmas.Suite13
import Verif.Lemmas.Forged12
/-!
# Datagrams in which no protected record opens (DTLS 1.3)
-/
namespace Verif.E13
open Verif Wire Window Timer Aead M
open Verif.E12 (beNat_total take_total)

theorem bind_total {α β : Type} {p : PRes α} {f : Bytes → α → PRes β} (h : p ≠ .panic)
    (h' : ∀ i a, f i a ≠ .panic) : p.bind f ≠ .panic := by
  cases p with
  | ok i a => exact h' i a
  | panic => exact absurd rfl h
  | error => exact nofun
  | failure => exact nofun

theorem parse13_total (b : Bytes) : parse13 b ≠ .panic := by
  unfold parse13
  split
  · exact nofun
  split
  · unfold parseCipher13
    refine bind_total (beNat_total _ _) fun _ _ => ?_
    dsimp only
    split; · exact nofun
    refine bind_total (beNat_total _ _) fun _ _ => ?_
    split
    · exact bind_total (beNat_total _ _) fun _ _ => bind_total (take_total _ _) fun _ _ => nofun
    · exact bind_total (take_total _ _) fun _ _ => nofun
  · unfold parsePlain13
    refine bind_total (beNat_total _ _) fun _ _ => bind_total (beNat_total _ _) fun _ _ => ?_
    dsimp only
    split; · exact nofun
    split; · exact nofun
    refine bind_total (beNat_total _ _) fun _ _ => ?_
    split; · exact nofun
    exact bind_total (beNat_total _ _) fun _ _ => bind_total (beNat_total _ _) fun _ _ =>
      bind_total (take_total _ _) fun _ _ => nofun

/-- A receive key the engine holds. -/
def HasKey (s : Eng) (k : Keys) : Prop := s.hsRecv = some k ∨ ∃ r ∈ s.appRecv, r.keys = k

/-- No key the engine holds opens a protected record of the datagram, whatever its masked number stands for. -/
def Unopened (env : Env) (s : Eng) (p : Bytes) : Prop :=
  ∀ sl ∈ (split13 p).1, isCiphertextHeader (flagsOf sl) = true → ∀ k, HasKey s k → ∀ m q,
    env.dec k.key (nonceXor k.iv q) ((unmaskWith m sl).take (cipherHeaderLen (flagsOf sl)))
      ((unmaskWith m sl).drop (cipherHeaderLen (flagsOf sl))) = none

theorem recvKeys_hasKey {s : Eng} {ep : Nat} {k : Keys} (h : s.recvKeys ep = some k) : HasKey s k := by
  unfold Eng.recvKeys at h
  split at h
  · exact .inl h
  · cases hx : s.appRecv.find? (·.epoch == ep) with
    | none => rw [hx] at h; cases h
    | some r =>
      rw [hx] at h
      exact .inr ⟨r, List.mem_of_find?_eq_some hx, Option.some.inj h⟩

theorem unmaskWith_flags (m : UInt8 × UInt8) (sl : Bytes) : flagsOf (unmaskWith m sl) = flagsOf sl := by
  unfold unmaskWith
  split
  · split
    · split <;> rfl
    · rfl
  · rfl

theorem unmaskWith_zero (sl : Bytes) : unmaskWith (0, 0) sl = sl := by
  have hx : ∀ a : UInt8, a ^^^ 0 = a := by intro a; simp
  unfold unmaskWith
  split
  · split
    · split
      · simp only [hx]
      · rfl
    · simp only [hx]
  · rfl

/-- What unmasking the number of a record gives. -/
theorem unmask_cases {env : Env} {s : Eng} (ht : ∃ suite t, s.suite = some suite ∧ s.tag env = some t) (sl : Bytes) :
    ∃ m, unmask env s sl = some (unmaskWith m sl) := by
  obtain ⟨suite, t, h1, h2⟩ := ht
  unfold unmask
  split
  · exact ⟨(0, 0), rfl⟩
  · dsimp only
    split
    · split
      · exact ⟨(0, 0), by rw [unmaskWith_zero]⟩
      · rw [h1, h2]; exact ⟨_, rfl⟩
    · exact ⟨(0, 0), by rw [unmaskWith_zero]⟩

theorem parse13_headerLen {b rest : Bytes} {r : Rec13} (h : parse13 b = .ok rest r)
    (hc : isCiphertextHeader (flagsOf b) = true) : r.headerLen = cipherHeaderLen (flagsOf b) := by
  obtain ⟨_, ⟨ver, _, hct, _, _, _, hb⟩ | ⟨fl, hf, _, _, _, hb, hl, _⟩⟩ := Props.Wire.parse13_exact b rest r h
  · rw [hb] at hc
    have : isCiphertextHeader r.ctype = true := hc
    rcases hct with g | g | g <;> rw [g] at this <;> cases this
  · rw [hl, hb]; rfl

/-- The records a datagram holds without protection. -/
def Clear (sls : List Bytes) (r : Rx) : Prop :=
  ∃ sl ∈ sls, ∃ rest rcd, isCiphertextHeader (flagsOf sl) = false ∧ parse13 sl = .ok rest rcd ∧ r = plainRx sl rcd

theorem Clear.kind {sls : List Bytes} {r : Rx} (h : Clear sls r) :
    r.rcd.epoch = 0 ∧ (r.rcd.ctype = ctAlert ∨ r.rcd.ctype = ctHandshake ∨ r.rcd.ctype = ctAck) := by
  obtain ⟨sl, _, rest, rcd, hc, hp, rfl⟩ := h
  obtain ⟨_, ⟨ver, _, hct, he, _, _, hb⟩ | ⟨fl, hf, _, _, _, hb, hl, _⟩⟩ := Props.Wire.parse13_exact sl rest rcd hp
  · exact ⟨he, hct⟩
  · rw [hb] at hc
    have hc : isCiphertextHeader fl = false := hc
    rw [hf] at hc; cases hc

theorem recordParse_unopened {env : Env} {s : Eng} (hp : s.peerEnc = true)
    (ht : ∃ suite t, s.suite = some suite ∧ s.tag env = some t) {sl : Bytes}
    (hu : isCiphertextHeader (flagsOf sl) = true → ∀ k, HasKey s k → ∀ m q,
      env.dec k.key (nonceXor k.iv q) ((unmaskWith m sl).take (cipherHeaderLen (flagsOf sl)))
        ((unmaskWith m sl).drop (cipherHeaderLen (flagsOf sl))) = none) :
    recordParse env sl s = (.ok none, s) ∨ ∃ r, Clear [sl] r ∧ recordParse env sl s = (.ok (some r), s) := by
  unfold recordParse
  cases hc : isCiphertextHeader (flagsOf sl) with
  | false =>
    simp only [Bool.false_and, if_neg Bool.false_ne_true]
    cases g : parse13 sl with
    | ok rest r => exact .inr ⟨_, ⟨sl, by simp, rest, r, hc, g, rfl⟩, rfl⟩
    | panic => exact absurd g (parse13_total _)
    | error => exact .inl rfl
    | failure => exact .inl rfl
  | true =>
    obtain ⟨m, hm⟩ := unmask_cases ht sl
    simp only [hp, Bool.and_self, if_true, hm]
    left
    cases g : parse13 (unmaskWith m sl) with
    | panic => exact absurd g (parse13_total _)
    | error => rfl
    | failure => rfl
    | ok rest r =>
      have hl : r.headerLen = cipherHeaderLen (flagsOf sl) := by
        rw [parse13_headerLen g (by rw [unmaskWith_flags]; exact hc), unmaskWith_flags]
      obtain ⟨suite, t, h1, h2⟩ := ht
      dsimp only
      unfold openRecord
      dsimp only
      split; · rfl
      rw [h2]
      dsimp only
      split; · rfl
      split
      · rfl
      · rename_i k hk
        rw [hl, hu hc k (recvKeys_hasKey hk) m]

theorem parseSlices_unopened {env : Env} {s : Eng} (hp : s.peerEnc = true)
    (ht : ∃ suite t, s.suite = some suite ∧ s.tag env = some t) (sls : List Bytes) (e : SplitEnd) (acc : List Rx)
    (hu : ∀ sl ∈ sls, isCiphertextHeader (flagsOf sl) = true → ∀ k, HasKey s k → ∀ m q,
      env.dec k.key (nonceXor k.iv q) ((unmaskWith m sl).take (cipherHeaderLen (flagsOf sl)))
        ((unmaskWith m sl).drop (cipherHeaderLen (flagsOf sl))) = none) :
    parseSlices env sls e acc s = (.fail .transient, s) ∨
    ∃ rs, (∀ r ∈ rs, Clear sls r) ∧ parseSlices env sls e acc s = (.ok (acc ++ rs), s) := by
  induction sls generalizing acc with
  | nil =>
    have : ((.ok acc, s) : Res (List Rx) × Eng) = (.ok (acc ++ []), s) := by rw [List.append_nil]
    cases e with
    | incomplete => exact .inl rfl
    | done => exact .inr ⟨[], (fun _ h => nomatch h), this⟩
    | discardRest => exact .inr ⟨[], (fun _ h => nomatch h), this⟩
  | cons sl rest ih =>
    have more : ∀ {r}, Clear rest r → Clear (sl :: rest) r := fun ⟨x, hx, h⟩ => ⟨x, List.mem_cons_of_mem _ hx, h⟩
    have hu' := fun x hx => hu x (List.mem_cons_of_mem _ hx)
    have e0 : parseSlices env (sl :: rest) e acc s = M.andThen (recordParse env sl s) fun r =>
      match r with
      | none => parseSlices env rest e acc
      | some rx => if acc.length ≥ 16 then M.transient else parseSlices env rest e (acc ++ [rx]) := rfl
    rw [e0]
    rcases recordParse_unopened hp ht (hu sl List.mem_cons_self) with g | ⟨r, hr, g⟩
    · rw [g]
      rcases ih acc hu' with h | ⟨rs, h1, h2⟩
      · exact .inl h
      · exact .inr ⟨rs, fun r hr => more (h1 r hr), h2⟩
    · rw [g]
      simp only [M.andThen]
      split
      · exact .inl rfl
      · rcases ih (acc ++ [r]) hu' with h | ⟨rs, h1, h2⟩
        · exact .inl h
        · refine .inr ⟨r :: rs, ?_, by rw [h2, List.append_assoc]; rfl⟩
          intro x hx
          rcases List.mem_cons.mp hx with rfl | hx
          · obtain ⟨y, hy, h⟩ := hr
            rw [List.mem_singleton] at hy
            subst hy
            exact ⟨y, List.mem_cons_self, h⟩
          · exact more (h1 x hx)

theorem classify_clear {env : Env} {s : Eng} (hp : s.peerEnc = true) {sls : List Bytes} {r : Rx} (hr : Clear sls r) :
    classify env r s = (.ok none, s) ∨ (r.rcd.ctype = ctHandshake ∧ classify env r s = (.ok (some r), s)) := by
  obtain ⟨h1, h2⟩ := hr.kind
  unfold classify
  split; · exact .inl rfl
  split; · exact .inl rfl
  rename_i hn
  have hh : r.rcd.ctype = ctHandshake := by
    rcases h2 with h2 | h2 | h2
    · exact absurd ⟨h1, hp, .inr h2⟩ hn
    · exact h2
    · exact absurd ⟨h1, hp, .inl h2⟩ hn
  refine .inr ⟨hh, ?_⟩
  rw [hh]
  rfl

theorem classifyAll_clear {env : Env} {s : Eng} (hp : s.peerEnc = true) {sls : List Bytes} (rs acc : List Rx)
    (hr : ∀ r ∈ rs, Clear sls r) :
    ∃ out, (∀ r ∈ out, r ∈ rs ∧ r.rcd.ctype = ctHandshake) ∧ classifyAll env rs acc s = (.ok (acc ++ out), s) := by
  induction rs generalizing acc with
  | nil => exact ⟨[], (fun _ h => nomatch h), by rw [List.append_nil]; rfl⟩
  | cons r rs ih =>
    have e0 : classifyAll env (r :: rs) acc s = M.andThen (classify env r s) fun o =>
      match o with
      | some r => classifyAll env rs (acc ++ [r])
      | none => classifyAll env rs acc := rfl
    have hr' := fun x hx => hr x (List.mem_cons_of_mem _ hx)
    rw [e0]
    rcases classify_clear (env := env) hp (hr r List.mem_cons_self) with g | ⟨gh, g⟩
    · rw [g]
      obtain ⟨out, h1, h2⟩ := ih acc hr'
      exact ⟨out, fun x hx => ⟨List.mem_cons_of_mem _ (h1 x hx).1, (h1 x hx).2⟩, h2⟩
    · rw [g]
      obtain ⟨out, h1, h2⟩ := ih (acc ++ [r]) hr'
      refine ⟨r :: out, ?_, by rw [List.append_assoc] at h2; exact h2⟩
      intro x hx
      rcases List.mem_cons.mp hx with rfl | hx
      · exact ⟨List.mem_cons_self, gh⟩
      · exact ⟨List.mem_cons_of_mem _ (h1 x hx).1, (h1 x hx).2⟩

/-- What a datagram in which no protected record opens can do, once the peer's encryption is on: nothing, or
its unprotected handshake records go to the receive queue. -/
inductive Idle (env : Env) (s : Eng) (p : Bytes) : Prop
  | dropped : parsePacket env p s = (.ok (), s) → Idle env s p
  | transient : parsePacket env p s = (.fail .transient, s) → Idle env s p
  | clear (rs : List Rx) : rs ≠ [] → (∀ r ∈ rs, Clear (split13 p).1 r ∧ r.rcd.ctype = ctHandshake) →
      parsePacket env p s = insertIncoming env rs s → Idle env s p

theorem parsePacket_unopened {env : Env} {s : Eng} (hp : s.peerEnc = true)
    (ht : ∃ suite t, s.suite = some suite ∧ s.tag env = some t) {p : Bytes} (hu : Unopened env s p) :
    Idle env s p := by
  have e0 : parsePacket env p s = M.andThen (M.andThen (parseSlices env (split13 p).1 (split13 p).2 [] s)
      fun rs => classifyAll env rs []) fun rs => match rs with | [] => M.pure () | _ => insertIncoming env rs := rfl
  rcases parseSlices_unopened hp ht (split13 p).1 (split13 p).2 [] hu with g | ⟨rs, h1, g⟩
  · exact .transient (by rw [e0, g]; rfl)
  · obtain ⟨out, h2, g2⟩ := classifyAll_clear (env := env) hp rs [] h1
    have e1 : parsePacket env p s = M.andThen (.ok out, s) fun rs =>
        match rs with | [] => M.pure () | _ => insertIncoming env rs := by
      rw [e0, g, List.nil_append]
      have : M.andThen ((.ok rs, s) : Res (List Rx) × Eng) (fun rs => classifyAll env rs []) = classifyAll env rs [] s := rfl
      rw [this, g2, List.nil_append]
    cases out with
    | nil => exact .dropped e1
    | cons r out => exact .clear (r :: out) nofun (fun x hx => ⟨h1 x (h2 x hx).1, (h2 x hx).2⟩) e1

end Verif.E13

import Verif.Props.Sigs
/-!
# C83: fields of hello messages with one legal value
-/
namespace Verif.Props.Fields
open Verif Wire M

/-- What a step took from the engine. -/
theorem wp_self {m : M σ α} {s : σ} {Q : α → σ → Prop} {F : Fault → σ → Prop} (h : wp m s Q F) :
    wp m s (fun a s' => Q a s' ∧ (m s).2 = s') (fun f s' => F f s') := by
  unfold wp at *
  split
  · rename_i he; rw [he] at h ⊢; exact ⟨h, rfl⟩
  · rename_i he; rw [he] at h; exact h

section
open Verif.E12

/-- **C83, DTLS 1.2.** A client goes on after a ServerHello only if it names DTLS 1.2 and no compression. -/
theorem client12_checks (env : PEnv) (s : Ses CSt) :
    wp (C12.awaitServerHello env) s (fun new _ => new ≠ .awaitServerHello →
      ∃ seq body h, (nextHandshake env.toEnv mtServerHello s.eng).2.log = .consumed seq 2 body :: s.eng.log ∧
        env.parseServerHello body = some ([], h) ∧ h.version = 0xFEFD ∧ h.compression = 0) (fun _ _ => True) := by
  unfold C12.awaitServerHello
  simp only [bind_eq, pure_eq]
  rw [wp_bind, wp_onEng]
  refine wp_mono (wp_self (nextHandshake_ok env.toEnv mtServerHello s.eng (by decide))) ?_ (fun _ _ _ => trivial)
  intro m e ⟨⟨_, hm⟩, he⟩
  rcases hm with ⟨rfl, rfl⟩ | ⟨bd, seq, body, rfl, hl, hp, _⟩
  · intro h; exact absurd rfl h
  obtain ⟨h, rfl, hx⟩ := parseBody_serverHello hp
  dsimp only
  rw [wp_bind]
  refine wp_check_of (fun hv => ?_) trivial
  rw [wp_bind]
  refine wp_check_of (fun hc => ?_) trivial
  have good : ∃ seq body h, (nextHandshake env.toEnv mtServerHello s.eng).2.log = .consumed seq 2 body :: s.eng.log ∧
      env.parseServerHello body = some ([], h) ∧ h.version = 0xFEFD ∧ h.compression = 0 :=
    ⟨seq, body, h, by rw [he]; exact hl, hx, eq_of_beq hv, eq_of_beq hc⟩
  exact wp_of (fun _ _ _ _ => good) (fun _ _ _ => trivial)

/-- **C83, DTLS 1.2.** A server goes on after a ClientHello only if it names DTLS 1.2 and offers no compression. -/
theorem server12_checks (env : PEnv) (s : Ses SSt) :
    wp (S12.awaitClientHello env) s (fun new _ => new ≠ .awaitClientHello →
      ∃ seq body h, (nextHandshake env.toEnv mtClientHello s.eng).2.log = .consumed seq 1 body :: s.eng.log ∧
        env.parseClientHello body = some ([], h) ∧ h.version = 0xFEFD ∧ 0 ∈ h.compressions) (fun _ _ => True) := by
  unfold S12.awaitClientHello
  simp only [bind_eq, pure_eq]
  rw [wp_bind, wp_onEng]
  refine wp_mono (wp_self (nextHandshake_ok env.toEnv mtClientHello s.eng (by decide))) ?_ (fun _ _ _ => trivial)
  intro m e ⟨⟨_, hm⟩, he⟩
  rcases hm with ⟨rfl, rfl⟩ | ⟨bd, seq, body, rfl, hl, hp, _⟩
  · intro h; exact absurd rfl h
  obtain ⟨h, rfl, hx⟩ := parseBody_clientHello hp
  dsimp only
  rw [wp_bind]
  refine wp_check_of (fun hv => ?_) trivial
  rw [wp_bind]
  refine wp_check_of (fun hc => ?_) trivial
  have good : ∃ seq body h, (nextHandshake env.toEnv mtClientHello s.eng).2.log = .consumed seq 1 body :: s.eng.log ∧
      env.parseClientHello body = some ([], h) ∧ h.version = 0xFEFD ∧ 0 ∈ h.compressions :=
    ⟨seq, body, h, by rw [he]; exact hl, hx, eq_of_beq hv, List.contains_iff_mem.mp hc⟩
  exact wp_of (fun _ _ _ _ => good) (fun _ _ _ => trivial)

end

section
open Verif.E13

/-- **C83, DTLS 1.3.** A client installs handshake keys after a ServerHello only if its legacy version is DTLS 1.2, it
names no compression, and its supported_versions is DTLS 1.3. -/
theorem client13_checks (env : PEnv) (s : Ses CSt) :
    wp (C13.awaitServerHello env) s (fun new _ => new = .awaitEncryptedExtensions →
      ∃ seq body h, (nextHandshake env.toEnv mtServerHello s.eng).2.log = .taken seq 2 body :: s.eng.log ∧
        env.parseServerHello body = some ([], h) ∧ h.version = 0xFEFD ∧ h.compression = 0 ∧
        ∃ exts d, h.exts = some exts ∧ (43, d) ∈ exts ∧ env.parseServerVersion d = some 0xFEFC) (fun _ _ => True) := by
  unfold C13.awaitServerHello
  simp only [bind_eq, pure_eq, wp_bind, wp_get]
  rw [wp_onEng]
  refine wp_mono (wp_self (nextHandshake_ok env.toEnv mtServerHello s.eng (by decide))) ?_ (fun _ _ _ => trivial)
  intro m e ⟨⟨_, hm⟩, he⟩
  rcases hm with ⟨rfl, rfl⟩ | ⟨bd, seq, body, rfl, hl, hp, _⟩
  · intro h; cases h
  obtain ⟨h, rfl, hx⟩ := parseBody_serverHello hp
  dsimp only
  split
  · unfold C13.helloRetry
    rw [bind_eq, wp_bind, wp_get]
    split
    · rw [bind_eq, wp_bind]; exact trivial
    · simp only [bind_eq, pure_eq, wp_bind]
      refine wp_mono (Q := fun _ _ => True) (F := fun _ _ => True) ?_ ?_ (fun _ _ _ => trivial)
      · exact wp_of (fun _ _ _ => trivial) (fun _ _ _ => trivial)
      intro _ s1 _
      refine wp_check_of (fun _ => ?_) trivial
      rw [wp_setSuite]
      refine wp_check_of (fun _ => ?_) trivial
      refine wp_mono (Q := fun _ _ => True) (F := fun _ _ => True)
        (wp_of (fun _ _ _ => trivial) (fun _ _ _ => trivial)) ?_ (fun _ _ _ => trivial)
      intro _ s2 _
      refine wp_mono (Q := fun _ _ => True) (F := fun _ _ => True)
        (wp_of (fun _ _ _ => trivial) (fun _ _ _ => trivial)) ?_ (fun _ _ _ => trivial)
      intro _ s3 _ h
      cases h
  · unfold C13.serverHello
    simp only [bind_eq, pure_eq]
    rw [wp_bind]
    refine wp_check_of (fun hv => ?_) trivial
    rw [wp_bind]
    refine wp_check_of (fun hc => ?_) trivial
    rw [wp_bind]
    refine wp_check_of (fun _ => ?_) trivial
    rw [wp_bind]
    refine wp_check_of (fun _ => ?_) trivial
    rw [wp_bind, wp_setSuite, wp_bind, wp_modify, wp_bind]
    refine wp_orFatal_of (fun exts hes => ?_) trivial
    rw [wp_bind]
    refine wp_check_of (fun hver => ?_) trivial
    obtain ⟨⟨t, d⟩, hm, hd⟩ := List.any_eq_true.mp hver
    simp only [Bool.and_eq_true, beq_iff_eq] at hd
    obtain ⟨rfl, hd⟩ := hd
    have good : ∃ seq body h, (nextHandshake env.toEnv mtServerHello s.eng).2.log = .taken seq 2 body :: s.eng.log ∧
        env.parseServerHello body = some ([], h) ∧ h.version = 0xFEFD ∧ h.compression = 0 ∧
        ∃ exts d, h.exts = some exts ∧ (43, d) ∈ exts ∧ env.parseServerVersion d = some 0xFEFC :=
      ⟨seq, body, h, by rw [he]; exact hl, hx, eq_of_beq hv, eq_of_beq hc, exts, d, hes, hm, hd⟩
    exact wp_of (fun _ _ _ _ => good) (fun _ _ _ => trivial)

/-- **C83, DTLS 1.3.** A server goes on after a ClientHello, or asks for another, only if its legacy cookie is empty, its
legacy version DTLS 1.2, and no compression is among its methods. -/
theorem server13_checks (env : PEnv) (s : Ses SSt) :
    wp (S13.awaitClientHello env) s (fun _ _ =>
      let e := (nextHandshakeWith env.toEnv s.autoMode true mtClientHello s.eng).2
      e = s.eng ∨ ∃ seq body h, e.log = .taken seq 1 body :: s.eng.log ∧
        env.parseClientHello s.autoMode body = some ([], h) ∧ h.cookie = [] ∧ h.version = 0xFEFD ∧ 0 ∈ h.compressions)
      (fun _ _ => True) := by
  unfold S13.awaitClientHello
  simp only [bind_eq, pure_eq, wp_bind, wp_get]
  rw [wp_onEng]
  refine wp_mono (wp_self (nextHandshakeWith_ok env.toEnv s.autoMode mtClientHello s.eng (by decide))) ?_
    (fun _ _ _ => trivial)
  intro m e ⟨⟨_, hm⟩, he⟩
  rcases hm with ⟨rfl, rfl⟩ | ⟨bd, seq, body, rfl, hl, hp, _⟩
  · exact .inl he
  obtain ⟨h, rfl, hx⟩ := parseBody_clientHello hp
  dsimp only
  unfold S13.clientHello
  simp only [bind_eq, pure_eq]
  rw [wp_bind]
  refine wp_check_of (fun hk => ?_) trivial
  rw [wp_bind]
  refine wp_check_of (fun hv => ?_) trivial
  rw [wp_bind]
  refine wp_check_of (fun hc => ?_) trivial
  refine wp_of (fun _ _ _ => ?_) (fun _ _ _ => trivial)
  exact .inr ⟨seq, body, h, by rw [he]; exact hl, hx, by simpa using hk, eq_of_beq hv, List.contains_iff_mem.mp hc⟩

end

/-! ## Fields that are not checked -/

/-- Bodies of the messages of a type a DTLS 1.3 end took. -/
def bodies13 (t : UInt8) (l : List E13.Ev) : List Bytes :=
  l.filterMap fun
    | .taken _ t' b => if t' = t then some b else none
    | _ => none

def bodies12 (t : UInt8) (l : List E12.Ev) : List Bytes :=
  l.filterMap fun
    | .consumed _ t' b => if t' = t then some b else none
    | _ => none

/-- A server that puts a session id into its ServerHello. -/
def sid13 : E13.PEnv :=
  { MsgDemo.full13 with serverHelloBody := fun r s g p =>
      Msg13.putServerHello { Msg13.serverHello r s g p with sessionId := List.replicate 32 9 } }

/-- **C83.** RFC 8446, section 4.1.3: "A client which receives a legacy_session_id_echo field that does not match what it
sent in the ClientHello MUST abort the handshake". Byte 34 of the hello messages is the length of the session id. -/
theorem session_id_ignored :
    let d := E13.Demo.rounds MsgDemo.full13 sid13 4
    d.client.st = .awaitApplicationData ∧ d.server.st = .awaitApplicationData ∧
    (bodies13 1 d.server.eng.log).map (·[34]?) = [some 0, some 0] ∧
    (bodies13 2 d.client.eng.log).map (·[34]?) = [some 32, some 0] := by decide +kernel

/-- A client that offers DEFLATE besides no compression. -/
def deflate13 : E13.PEnv :=
  { MsgDemo.full13 with clientHelloBody := fun r g p c =>
      Msg13.putClientHello { Msg13.clientHello E13.Demo.fullEnv 150 r g p c with compressions := [1, 0] } }

/-- **C83.** RFC 8446, section 4.1.2: the compression methods "MUST contain exactly one byte, set to zero [...] If a TLS 1.3
ClientHello is received with any other value in this field, the server MUST abort the handshake". From byte 34 on, the
ClientHellos have an empty session id, an empty cookie, one suite and two compression methods. -/
theorem compressions_ignored :
    let d := E13.Demo.rounds deflate13 MsgDemo.full13 4
    d.client.st = .awaitApplicationData ∧ d.server.st = .awaitApplicationData ∧
    (bodies13 1 d.server.eng.log).map (fun b => (b.drop 34).take 9) =
      [[0, 0, 0, 2, 19, 1, 2, 1, 0], [0, 0, 0, 2, 19, 1, 2, 1, 0]] := by decide +kernel

/-- Servers that put an extension 99 nobody asked for into the ServerHello, or the EncryptedExtensions. -/
def ext13 : E13.PEnv :=
  { MsgDemo.full13 with serverHelloBody := fun r s g p =>
      let h := Msg13.serverHello r s g p
      Msg13.putServerHello { h with exts := h.exts.map (· ++ [(99, [1])]) } }

def enc13 : E13.PEnv :=
  { MsgDemo.full13 with encryptedExtensionsBody := fun s => Msg.putExts (Msg13.encExts s ++ [(99, [1])]) }

def ext12 : E12.PEnv :=
  { MsgDemo.cert12 with serverHelloBody := fun r i s p =>
      let h := Msg12.serverHello r i s p
      Msg12.putServerHello { h with exts := h.exts.map (· ++ [(99, [1])]) } }

/-- **C83.** RFC 8446, section 4.2, and RFC 5246, section 7.4.1.4: an end that receives an extension it did not ask for must
abort the handshake. -/
theorem extensions_ignored :
    let d := E13.Demo.rounds MsgDemo.full13 ext13 4
    let f := E13.Demo.rounds MsgDemo.full13 enc13 4
    let g := Sigs.mixed MsgDemo.cert12 ext12 3
    (d.client.st = .awaitApplicationData ∧ d.server.st = .awaitApplicationData ∧
      (bodies13 2 d.client.eng.log).head?.map (fun b => b.drop (b.length - 5)) = some [0, 99, 0, 1, 1]) ∧
    (f.client.st = .awaitApplicationData ∧ f.server.st = .awaitApplicationData ∧
      (bodies13 8 f.client.eng.log).head?.map (fun b => b.drop (b.length - 5)) = some [0, 99, 0, 1, 1]) ∧
    g.client.st = .awaitApplicationData ∧ g.server.st = .awaitApplicationData ∧
      (bodies12 2 g.client.eng.log).head?.map (fun b => b.drop (b.length - 5)) = some [0, 99, 0, 1, 1] := by
  decide +kernel

end Verif.Props.Fields

import Verif.Model.Pool
/-!
# C87: reused buffers show nothing of their past
-/
namespace Verif.Props.Pool
open Verif Verif.Pool

/-- What is done with a buffer. -/
inductive Op
  | clear
  | extend (l : Bytes)
  | push (x : UInt8)
  | resize (n : Nat) (x : UInt8)
  | set (i : Nat) (x : UInt8)

/-- Specification: the same on a list of bytes; `none` where the code panics. -/
def Op.spec : Op → Bytes → Option Bytes
  | .clear, _ => some []
  | .extend l, b => some (b ++ l)
  | .push x, b => some (b ++ [x])
  | .resize n x, b => some (b.take n ++ List.replicate (n - b.length) x)
  | .set i x, b => if i < b.length then some (b.set i x) else none

def Op.run : Op → Buf → Option Buf
  | .clear, b => some b.clear
  | .extend l, b => some (b.extend l)
  | .push x, b => some (b.push x)
  | .resize n x, b => some (b.resize n x)
  | .set i x, b => b.set i x

/-- The operations one after the other. -/
def runAll : List Op → Buf → Option Buf
  | [], b => some b
  | o :: l, b => (o.run b).bind (runAll l)

def specAll : List Op → Bytes → Option Bytes
  | [], b => some b
  | o :: l, b => (o.spec b).bind (specAll l)

/-- The length lies in the memory. -/
def Ok (b : Buf) : Prop := b.len ≤ b.mem.length

theorem read_length (h : Ok b) : b.read.length = b.len := by
  unfold Buf.read
  rw [List.length_take]
  exact Nat.min_eq_left h

theorem extend_ok (h : Ok b) (l : Bytes) : Ok (b.extend l) ∧ (b.extend l).read = b.read ++ l := by
  have hl := read_length h
  unfold Buf.read at hl
  constructor
  · show b.len + l.length ≤ (b.mem.take b.len ++ l ++ b.mem.drop (b.len + l.length)).length
    rw [List.length_append, List.length_append, hl]
    omega
  · show (b.mem.take b.len ++ l ++ b.mem.drop (b.len + l.length)).take (b.len + l.length) = b.mem.take b.len ++ l
    exact List.take_left' (by rw [List.length_append, hl])

/-- One operation does to what can be read what it does to a list. -/
theorem op_ok (h : Ok b) (o : Op) :
    (∀ b', o.run b = some b' → Ok b') ∧ (o.run b).map Buf.read = o.spec b.read := by
  cases o with
  | clear =>
    refine ⟨?_, ?_⟩
    · intro b' e; cases e; exact Nat.zero_le _
    · show some (b.mem.take 0) = some []
      rfl
  | extend l =>
    refine ⟨?_, congrArg some (extend_ok h l).2⟩
    intro b' e; cases e; exact (extend_ok h l).1
  | push x =>
    refine ⟨?_, congrArg some (extend_ok h [x]).2⟩
    intro b' e; cases e; exact (extend_ok h [x]).1
  | resize n x =>
    have hl := read_length h
    show (∀ b', some (b.resize n x) = some b' → Ok b') ∧
      some (b.resize n x).read = some (b.read.take n ++ List.replicate (n - b.read.length) x)
    unfold Buf.resize
    rw [hl]
    split
    · rename_i g
      refine ⟨?_, ?_⟩
      · intro b' e; cases e; exact Nat.le_trans g h
      · rw [Nat.sub_eq_zero_of_le g, List.replicate_zero, List.append_nil]
        show some (b.mem.take n) = some ((b.mem.take b.len).take n)
        rw [List.take_take, Nat.min_eq_left g]
    · rename_i g
      refine ⟨?_, ?_⟩
      · intro b' e; cases e; exact (extend_ok h _).1
      · rw [(extend_ok h _).2, List.take_of_length_le (by rw [hl]; omega)]
  | set i x =>
    have hl := read_length h
    show (∀ b', b.set i x = some b' → Ok b') ∧
      (b.set i x).map Buf.read = if i < b.read.length then some (b.read.set i x) else none
    unfold Buf.set
    rw [hl]
    split
    · refine ⟨?_, ?_⟩
      · intro b' e
        cases e
        show b.len ≤ (b.mem.set i x).length
        rw [List.length_set]
        exact h
      · show some ((b.mem.set i x).take b.len) = some ((b.mem.take b.len).set i x)
        rw [List.take_set]
    · exact ⟨fun _ e => (nomatch e), rfl⟩

theorem all_ok (l : List Op) : ∀ {b : Buf}, Ok b →
    (∀ b', runAll l b = some b' → Ok b') ∧ (runAll l b).map Buf.read = specAll l b.read := by
  induction l with
  | nil => intro b h; exact ⟨fun b' e => by cases e; exact h, rfl⟩
  | cons o l ih =>
    intro b h
    obtain ⟨h1, h2⟩ := op_ok h o
    show (∀ b', (o.run b).bind (runAll l) = some b' → Ok b') ∧
      ((o.run b).bind (runAll l)).map Buf.read = (o.spec b.read).bind (specAll l)
    rw [← h2]
    cases e : o.run b with
    | none => exact ⟨fun _ e => (nomatch e), rfl⟩
    | some b1 => exact ih (h1 b1 e)

/-- A history of the pool: buffers put back, each with any content, and buffers taken. -/
inductive Reach : Pool → Prop
  | start : Reach {}
  | push : Reach p → Ok b → Reach (p.push b)
  | pop : Reach p → p.pop = some (b, p') → Reach p'

theorem reach_ok (h : Reach p) : ∀ b ∈ p.free, Ok b ∧ b.len = 0 := by
  induction h with
  | start => intro b hb; cases hb
  | push _ _ ih =>
    intro b hb
    rcases List.mem_cons.mp hb with rfl | hb
    · exact ⟨Nat.zero_le _, rfl⟩
    · exact ih b hb
  | @pop p b p' _ e ih =>
    intro c hc
    unfold Pool.pop at e
    obtain ⟨free⟩ := p
    cases free with
    | nil => cases e; cases hc
    | cons x l => cases e; exact ih c (List.mem_cons_of_mem _ hc)

/-- **C87.** A buffer can always be taken. -/
theorem pop_total (p : Pool) : p.pop ≠ none := by
  obtain ⟨free⟩ := p
  cases free <;> exact fun e => nomatch e

/-- **C87.** After any history, whatever is done with a buffer taken from the pool shows exactly what a list that began empty
shows, and panics where that does: nothing of what buffers put back held. -/
theorem reuse_hidden (h : Reach p) (e : p.pop = some (b, p')) (l : List Op) :
    (runAll l b).map Buf.read = specAll l [] := by
  have hb : Ok b ∧ b.len = 0 := by
    unfold Pool.pop at e
    obtain ⟨free⟩ := p
    cases free with
    | nil => cases e; exact ⟨Nat.le_refl _, rfl⟩
    | cons x t => cases e; exact reach_ok h _ List.mem_cons_self
  have hr : b.read = [] := List.eq_nil_of_length_eq_zero (by rw [read_length hb.1, hb.2])
  rw [← hr]
  exact (all_ok l hb.1).2

/-- **C87.** So two endpoints with different pools see the same. -/
theorem pools_alike (h : Reach p) (e : p.pop = some (b, p')) (h1 : Reach q) (e1 : q.pop = some (c, q')) (l : List Op) :
    (runAll l b).map Buf.read = (runAll l c).map Buf.read := by rw [reuse_hidden h e, reuse_hidden h1 e1]

/-- **C87.** The pool never holds more buffers than were put back: taking one does not add to it. -/
theorem pop_shrinks {p p' : Pool} (e : p.pop = some (b, p')) : p'.free.length = p.free.length - 1 := by
  unfold Pool.pop at e
  obtain ⟨free⟩ := p
  cases free with
  | nil => cases e; rfl
  | cons x t => cases e; rfl

/-! ## Instances -/

/-- A buffer that held a secret. -/
def used : Buf := Buf.new.extend [7, 7, 7, 7, 7]

def pool : Pool := Pool.push {} used

theorem pool_reach : Reach pool := .push .start (extend_ok (Nat.le_refl _) _).1

/-- It is the one taken, its memory still holds the secret, and lengthening it shows none of it. -/
example : (pool.pop.map fun x => x.1.mem) = some [7, 7, 7, 7, 7] ∧
    (pool.pop.bind fun x => runAll [.push 1, .resize 4 0, .set 3 9] x.1).map Buf.read = some [1, 0, 0, 9] ∧
    (pool.pop.bind fun x => runAll [.set 3 9] x.1) = none := by decide

end Verif.Props.Pool

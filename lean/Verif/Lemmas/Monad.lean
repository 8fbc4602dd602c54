import Verif.Model.Monad
/-!
# Weakest preconditions for `M`
-/
namespace Verif.M
variable {σ τ α β : Type}

/-- Both outcomes of `m` from `s` satisfy their condition. -/
def wp (m : M σ α) (s : σ) (Q : α → σ → Prop) (F : Fault → σ → Prop) : Prop :=
  match m s with
  | (.ok a, s') => Q a s'
  | (.fail f, s') => F f s'

theorem wp_of {m : M σ α} {s : σ} {Q : α → σ → Prop} {F : Fault → σ → Prop}
    (hok : ∀ a s', m s = (.ok a, s') → Q a s') (hf : ∀ f s', m s = (.fail f, s') → F f s') :
    wp m s Q F := by
  unfold wp
  split
  · exact hok _ _ ‹_›
  · exact hf _ _ ‹_›

theorem wp_ok {m : M σ α} {s : σ} {Q : α → σ → Prop} {F : Fault → σ → Prop} (h : wp m s Q F)
    {a : α} {s' : σ} (he : m s = (.ok a, s')) : Q a s' := by
  unfold wp at h; rw [he] at h; exact h

theorem wp_fail {m : M σ α} {s : σ} {Q : α → σ → Prop} {F : Fault → σ → Prop} (h : wp m s Q F)
    {f : Fault} {s' : σ} (he : m s = (.fail f, s')) : F f s' := by
  unfold wp at h; rw [he] at h; exact h

theorem wp_mono {m : M σ α} {s : σ} {Q Q' : α → σ → Prop} {F F' : Fault → σ → Prop}
    (h : wp m s Q F) (hq : ∀ a s', Q a s' → Q' a s') (hf : ∀ f s', F f s' → F' f s') :
    wp m s Q' F' := by
  unfold wp at *
  split
  · rename_i he; rw [he] at h; exact hq _ _ h
  · rename_i he; rw [he] at h; exact hf _ _ h

theorem wp_and {m : M σ α} {s : σ} {Q Q' : α → σ → Prop} {F F' : Fault → σ → Prop}
    (h : wp m s Q F) (h' : wp m s Q' F') :
    wp m s (fun a s => Q a s ∧ Q' a s) (fun f s => F f s ∧ F' f s) := by
  unfold wp at *
  split <;> (rename_i he; rw [he] at h h'; exact ⟨h, h'⟩)

/-- The same condition on the final state whatever the result. -/
theorem wp_state {m : M σ α} {s : σ} {R : σ → Prop} :
    wp m s (fun _ => R) (fun _ => R) ↔ R (m s).2 := by
  unfold wp
  split <;> simp_all

theorem of_wp {m : M σ α} {s : σ} (R : σ → Prop) (h : wp m s (fun _ => R) (fun _ => R)) : R (m s).2 :=
  wp_state.mp h

theorem to_wp {m : M σ α} {s : σ} {R : σ → Prop} (h : R (m s).2) : wp m s (fun _ => R) (fun _ => R) :=
  wp_state.mpr h

@[simp] theorem bind_eq (m : M σ α) (f : α → M σ β) : (m >>= f) = M.bind m f := rfl
@[simp] theorem pure_eq (a : α) : (Pure.pure a : M σ α) = M.pure a := rfl

@[simp] theorem wp_pure (a : α) (s : σ) (Q : α → σ → Prop) (F) : wp (M.pure a) s Q F = Q a s := rfl

@[simp] theorem wp_bind (m : M σ α) (f : α → M σ β) (s : σ) (Q : β → σ → Prop) (F) :
    wp (M.bind m f) s Q F = wp m s (fun a s' => wp (f a) s' Q F) F := by
  unfold wp M.bind M.andThen
  rcases h : m s with ⟨r, s'⟩
  cases r <;> simp

@[simp] theorem wp_get (s : σ) (Q : σ → σ → Prop) (F) : wp M.get s Q F = Q s s := rfl
@[simp] theorem wp_set (s t : σ) (Q : Unit → σ → Prop) (F) : wp (M.set t) s Q F = Q () t := rfl
@[simp] theorem wp_modify (f : σ → σ) (s : σ) (Q : Unit → σ → Prop) (F) :
    wp (M.modify f) s Q F = Q () (f s) := rfl
@[simp] theorem wp_fail' (f : Fault) (s : σ) (Q : α → σ → Prop) (F) :
    wp (M.fail f : M σ α) s Q F = F f s := rfl
@[simp] theorem wp_fatal (e : Error) (s : σ) (Q : α → σ → Prop) (F) :
    wp (M.fatal e : M σ α) s Q F = F (.fatal e) s := rfl
@[simp] theorem wp_transient (s : σ) (Q : α → σ → Prop) (F) :
    wp (M.transient : M σ α) s Q F = F .transient s := rfl
@[simp] theorem wp_panic (s : σ) (Q : α → σ → Prop) (F) :
    wp (M.panic : M σ α) s Q F = F .panic s := rfl

theorem wp_zoom {proj : τ → σ} {put : τ → σ → τ} {m : M σ α} {t : τ} {Q : α → τ → Prop}
    {F : Fault → τ → Prop} :
    wp (M.zoom proj put m) t Q F =
      wp m (proj t) (fun a e => Q a (put t e)) (fun f e => F f (put t e)) := by
  unfold wp M.zoom
  rcases h : m (proj t) with ⟨r, s'⟩
  cases r <;> simp

theorem bind_ok {m : M σ α} {f : α → M σ β} {s s' : σ} {b : β}
    (h : M.bind m f s = (.ok b, s')) : ∃ a s1, m s = (.ok a, s1) ∧ f a s1 = (.ok b, s') := by
  unfold M.bind M.andThen at h
  rcases hm : m s with ⟨r, s1⟩
  rw [hm] at h
  cases r with
  | ok a => exact ⟨a, s1, rfl, h⟩
  | fail e => simp at h

/-- Final state of a bind. -/
theorem bind_snd (m : M σ α) (f : α → M σ β) (s : σ) :
    (M.bind m f s).2 = match (m s).1 with
      | .ok a => (f a (m s).2).2
      | .fail _ => (m s).2 := by
  unfold M.bind M.andThen
  rcases h : m s with ⟨r, s1⟩
  cases r <;> rfl

end Verif.M

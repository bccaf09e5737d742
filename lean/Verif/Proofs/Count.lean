import Verif.Model.Count
/-! # Counted operations: what they do, and budgets for their counts -/
namespace Ssp

/-- what a counted operation does, without the count -/
def K.erase {σ α : Type} (k : K σ α) : M σ α := fun s => (k s).1

theorem erase_pure {σ α : Type} (a : α) : (pure a : K σ α).erase = pure a := rfl
theorem erase_of {σ α : Type} (m : M σ α) (n : σ → Nat) : (K.of m n).erase = m := rfl
theorem erase_free {σ α : Type} (m : M σ α) : (K.free m).erase = m := rfl
theorem erase_bind {σ α β : Type} (k : K σ α) (f : α → K σ β) : (k >>= f).erase = k.erase >>= fun a => (f a).erase := by
  funext s
  show (K.bind k f s).1 = M.bind k.erase (fun a => (f a).erase) s
  unfold K.bind M.bind K.erase
  cases h : k s with
  | mk r n => cases r <;> simp
theorem erase_ite {σ α : Type} (p : Prop) [Decidable p] (a b : K σ α) :
    (if p then a else b).erase = if p then a.erase else b.erase := by split <;> rfl

/-- A counted result stays within the budget `b`; if it is a normal one, `Q` holds of it and of what is left. -/
def Within {σ α : Type} (r : Res σ α × Nat) (b : Nat) (Q : α → σ → Nat → Prop) : Prop :=
  r.2 ≤ b ∧ match r.1 with
    | .ok a s => Q a s (b - r.2)
    | _ => True

theorem Within.bind {σ α β : Type} {k : K σ α} {f : α → K σ β} {s : σ} {b : Nat} {Q : β → σ → Nat → Prop}
    (h : Within (k s) b fun a t b' => Within (f a t) b' Q) : Within ((k >>= f) s) b Q := by
  show Within (K.bind k f s) b Q
  unfold K.bind
  unfold Within at h
  cases hk : k s with
  | mk r n =>
    rw [hk] at h
    cases r with
    | ok a t =>
      obtain ⟨h1, h2, h3⟩ := h
      dsimp only at h1 h2 h3 ⊢
      refine ⟨by dsimp only; omega, ?_⟩
      dsimp only
      cases hf : (f a t).1 with
      | ok x u => rw [hf] at h3; dsimp only at h3 ⊢; rwa [show b - (n + (f a t).2) = b - n - (f a t).2 by omega]
      | exc _ _ => trivial
      | ub => trivial
      | nofuel => trivial
    | exc _ _ => exact ⟨h.1, trivial⟩
    | ub => exact ⟨h.1, trivial⟩
    | nofuel => exact ⟨h.1, trivial⟩

theorem Within.mono {σ α : Type} {r : Res σ α × Nat} {b : Nat} {Q Q' : α → σ → Nat → Prop}
    (h : Within r b Q) (hq : ∀ a s b', Q a s b' → Q' a s b') : Within r b Q' := by
  refine ⟨h.1, ?_⟩
  have := h.2
  cases hr : r.1 with
  | ok a s => rw [hr] at this; exact hq _ _ _ this
  | exc _ _ => trivial
  | ub => trivial
  | nofuel => trivial

theorem within_pure {σ α : Type} {a : α} {s : σ} {b : Nat} {Q : α → σ → Nat → Prop} (h : Q a s b) :
    Within ((pure a : K σ α) s) b Q := ⟨Nat.zero_le _, h⟩

theorem within_nofuel {σ α : Type} {s : σ} {b : Nat} {Q : α → σ → Nat → Prop} :
    Within ((K.free M.nofuel : K σ α) s) b Q := ⟨Nat.zero_le _, trivial⟩

theorem within_get {σ : Type} {s : σ} {b : Nat} {Q : σ → σ → Nat → Prop} (h : Q s s b) :
    Within ((K.free M.get : K σ σ) s) b Q := ⟨Nat.zero_le _, h⟩

theorem within_modify {σ : Type} {g : σ → σ} {s : σ} {b : Nat} {Q : Unit → σ → Nat → Prop} (h : Q () (g s) b) :
    Within ((K.free (M.modify g) : K σ Unit) s) b Q := ⟨Nat.zero_le _, h⟩

/-- An operation of the model that keeps track of its costs as a whole. -/
theorem within_of {σ α : Type} {m : M σ α} {n : σ → Nat} {s : σ} {b : Nat} {Q : α → σ → Nat → Prop}
    (hn : n s ≤ b) (h : ∀ a t, m s = .ok a t → Q a t (b - n s)) : Within (K.of m n s) b Q := by
  refine ⟨hn, ?_⟩
  show match m s with | .ok a t => Q a t (b - n s) | _ => True
  cases hm : m s with
  | ok a t => exact h a t hm
  | exc _ _ => trivial
  | ub => trivial
  | nofuel => trivial

end Ssp

import Verif.Proofs.SplitLoop
/-!
# Without quote and escape the splitter never writes
-/
namespace Ssp.Spl

/-- `m` neither writes to the line nor opens a gap. -/
def Keeps {α : Type} (m : M Spl α) : Prop :=
  ∀ s, s.escaped = 0 → match m s with
    | .ok _ s' => s'.mem = s.mem ∧ s'.escaped = 0
    | .exc _ s' => s'.mem = s.mem ∧ s'.escaped = 0
    | _ => True

theorem Keeps.bind {α β : Type} {m : M Spl α} {f : α → M Spl β} (h : Keeps m) (hf : ∀ a, Keeps (f a)) :
    Keeps (m >>= f) := by
  intro s hs
  have := h s hs
  cases hm : m s with
  | ok a s' =>
    rw [hm] at this
    obtain ⟨h1, h2⟩ := this
    have := hf a s' h2
    rw [M.bind_of_ok hm]
    cases hf' : f a s' with
    | ok b s'' => rw [hf'] at this; exact ⟨this.1.trans h1, this.2⟩
    | exc e s'' => rw [hf'] at this; exact ⟨this.1.trans h1, this.2⟩
    | ub => trivial
    | nofuel => trivial
  | exc e s' => rw [hm] at this; rw [M.bind_of_exc hm]; exact this
  | ub => rw [M.bind_eq, hm]; trivial
  | nofuel => rw [M.bind_eq, hm]; trivial

theorem Keeps.pure {α : Type} (a : α) : Keeps (Pure.pure a : M Spl α) := fun _ hs => ⟨rfl, hs⟩
theorem Keeps.get : Keeps (M.get : M Spl Spl) := fun _ hs => ⟨rfl, hs⟩
theorem Keeps.modify {f : Spl → Spl} (h1 : ∀ s, (f s).mem = s.mem)
    (h2 : ∀ s, s.escaped = 0 → (f s).escaped = 0) : Keeps (M.modify f) :=
  fun s hs => ⟨h1 s, h2 s hs⟩
theorem Keeps.ub {α : Type} : Keeps (M.ub : M Spl α) := fun _ _ => trivial
theorem Keeps.nofuel {α : Type} : Keeps (M.nofuel : M Spl α) := fun _ _ => trivial
theorem Keeps.rd (p : Nat) : Keeps (rd p) := by
  intro s hs
  unfold Spl.rd
  cases s.mem[p]? <;> simp [hs]

theorem Keeps.handleError (c : Cfg) (m : Bytes) : Keeps (handleError c m) := by
  intro s hs
  unfold Spl.handleError
  cases c.mode <;> simp [hs]

theorem Keeps.ite {α : Type} {p : Prop} [Decidable p] {a b : M Spl α} (ha : Keeps a) (hb : Keeps b) :
    Keeps (if p then a else b) := by split <;> assumption

theorem Keeps.skipWhile (set : List Byte) : ∀ f p, Keeps (skipWhile set f p)
  | 0, _ => Keeps.nofuel
  | f + 1, p => Keeps.bind (Keeps.rd p) fun _ => Keeps.ite (Keeps.skipWhile set f (p + 1)) (Keeps.pure _)

theorem Keeps.trimIfEnabled (set : List Byte) (p : Nat) : Keeps (trimIfEnabled set p) := by
  intro s hs
  unfold Spl.trimIfEnabled
  by_cases h : set = []
  · simp [h, hs]
  · simp only [h, if_false]
    exact Keeps.skipWhile set _ p s hs

theorem Keeps.strncmpEq : ∀ (ds : Bytes) (p : Nat), Keeps (strncmpEq p ds)
  | [], _ => Keeps.pure _
  | _ :: ds, p => Keeps.bind (Keeps.rd p) fun _ =>
      Keeps.ite (Keeps.pure _) (Keeps.ite (Keeps.pure _) (Keeps.strncmpEq ds (p + 1)))

theorem Keeps.matchDelim (p : Nat) (d : Delim) : Keeps (matchDelim p d) := by
  cases d with
  | chr b => exact Keeps.bind (Keeps.rd p) fun _ => Keeps.pure _
  | str d => exact Keeps.strncmpEq d p

theorem Keeps.shiftAndSetCurrent : Keeps shiftAndSetCurrent := by
  intro s hs
  simp [Spl.shiftAndSetCurrent, hs]

section
set_option linter.unusedSectionVars false
variable {c : Cfg} (hq : c.quote = none) (he : c.escape = [])
include hq he

theorem Keeps.matchDelimiter (d : Delim) (p : Nat) : Keeps (matchDelimiter c d p) := by
  unfold Spl.matchDelimiter
  refine Keeps.bind (Keeps.trimIfEnabled _ _) fun _ => Keeps.bind (Keeps.rd _) fun _ => ?_
  refine Keeps.ite (Keeps.pure _) (Keeps.bind (Keeps.matchDelim _ _) fun _ => Keeps.ite ?_ ?_)
  · refine Keeps.bind ?_ fun _ => Keeps.pure _
    simp only [shiftIfEscaped, he, if_true]
    exact Keeps.pure _
  · exact Keeps.bind (Keeps.trimIfEnabled _ _) fun _ => Keeps.pure _

theorem Keeps.readNormal (d : Delim) : ∀ f, Keeps (readNormal c d f)
  | 0 => Keeps.nofuel
  | f + 1 => by
    unfold Spl.readNormal
    refine Keeps.bind Keeps.get fun s => Keeps.bind (Keeps.matchDelimiter hq he d _) fun wv => ?_
    have hpush : Keeps shiftAndPush :=
      Keeps.bind Keeps.shiftAndSetCurrent fun _ => Keeps.modify (fun _ => rfl) (fun _ h => h)
    refine Keeps.ite (Keeps.ite ?_ ?_) ?_
    · exact Keeps.bind hpush fun _ => Keeps.modify (fun _ => rfl) (fun _ h => h)
    · exact Keeps.bind (Keeps.modify (fun _ => rfl) (fun _ h => h)) fun _ => Keeps.readNormal d f
    · exact Keeps.bind hpush fun _ => Keeps.modify (fun _ => rfl) (fun _ h => h)

theorem Keeps.read (d : Delim) : Keeps (read c d) := by
  unfold Spl.read
  rw [hq]
  refine Keeps.bind (Keeps.modify (fun _ => rfl) (fun _ _ => rfl)) fun _ => Keeps.bind Keeps.get fun s => ?_
  exact Keeps.bind (Keeps.modify (fun _ => rfl) (fun _ h => h)) fun _ => Keeps.readNormal hq he d _

theorem Keeps.readLoop (d : Delim) : ∀ f, Keeps (readLoop c d f)
  | 0 => Keeps.nofuel
  | f + 1 => Keeps.bind Keeps.get fun _ => Keeps.ite (Keeps.pure _)
      (Keeps.bind (Keeps.read hq he d) fun _ => Keeps.readLoop d f)

theorem Keeps.splitImpl (d : Delim) : Keeps (splitImpl c d) :=
  Keeps.bind Keeps.get fun _ => Keeps.bind (Keeps.trimIfEnabled _ _) fun _ =>
    Keeps.bind (Keeps.modify (fun _ => rfl) (fun _ h => h)) fun _ => Keeps.readLoop hq he d _

theorem Keeps.select (delim : Bytes) : Keeps (splitImplSelectDelim c delim) := by
  unfold splitImplSelectDelim
  refine Keeps.bind (Keeps.modify (fun _ => rfl) (fun _ h => h)) fun _ => ?_
  split
  · exact Keeps.handleError _ _
  · exact Keeps.splitImpl hq he _
  · exact Keeps.splitImpl hq he _

theorem Keeps.split (delim : Bytes) : Keeps (split c delim) :=
  Keeps.bind (Keeps.modify (fun _ => rfl) (fun _ h => h)) fun _ => Keeps.select hq he delim

end
end Ssp.Spl

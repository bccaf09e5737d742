import Verif.Spec.Api
import Verif.Proofs.SplitExtend
import Verif.Proofs.SplitConst
import Verif.Proofs.SplitCut
/-!
# From the refinement theorems to what a caller observes
-/
namespace Ssp
open Spec Spl

theorem ErrSt.valid_clear (m : ErrMode) (e : ErrSt) : (e.clear m).valid m = true := by
  cases m <;> simp [ErrSt.clear, ErrSt.valid]

theorem ErrSt.valid_set {m : ErrMode} {msg : Bytes} (hm : m ≠ .throw) (h : msg ≠ []) (e : ErrSt) :
    (e.set m msg).valid m = false := by
  cases m <;> simp_all [ErrSt.set, ErrSt.valid]

theorem Ranges.columns {mem : Bytes} : ∀ {lo hi : Nat} {ds : List (Nat × Nat)} {fs : List Bytes},
    Ranges mem lo hi ds fs → ds.map (fun p => (mem.drop p.1).take (p.2 - p.1)) = fs
  | _, _, [], [], _ => rfl
  | _, _, (b, e) :: ds, f :: fs, ⟨_, h2, h3, h4⟩ => by
    simp only [List.map_cons, h4.columns]
    congr 1
    rw [h2, Nat.add_sub_cancel_left]
    exact h3
  | _, _, [], _ :: _, h => h.elim
  | _, _, _ :: _, [], h => h.elim

theorem Ranges.inside {mem : Bytes} : ∀ {lo hi : Nat} {ds : List (Nat × Nat)} {fs : List Bytes},
    Ranges mem lo hi ds fs → (∀ p ∈ ds, lo ≤ p.1 ∧ p.1 ≤ p.2 ∧ p.2 ≤ hi) ∧
      ds.Pairwise (fun p q => p.2 ≤ q.1)
  | _, _, [], [], _ => by simp
  | lo, hi, (b, e) :: ds, f :: fs, ⟨h1, h2, h3, h4⟩ => by
    obtain ⟨i1, i2⟩ := h4.inside
    have hle := h4.le
    constructor
    · intro p hp
      rcases List.mem_cons.mp hp with rfl | hp
      · exact ⟨h1, by simp; omega, hle⟩
      · have := i1 p hp; exact ⟨by omega, this.2⟩
    · exact List.pairwise_cons.mpr ⟨fun q hq => (i1 q hq).1, i2⟩
  | _, _, [], _ :: _, h => h.elim
  | _, _, _ :: _, [], h => h.elim

theorem stringError_ne_nil {e : End} {ml : Bool} {n : Nat} {m : Bytes} (h : e.stringError ml n = some m) :
    m ≠ [] := by
  cases e <;> cases ml <;> simp [End.stringError] at h <;> subst h <;>
    simp [Spl.msgUnterminatedEscape, Spl.msgUnterminatedQuote, Spl.msgMismatchedQuote, bs]

section
variable {c : Cfg} (hc : c.WF) {delim line T : Bytes} {s : Spl} (hd : delim ≠ []) (hd0 : NUL ∉ delim)
  (hs : Holds s line T)
include hc hd hd0 hs

theorem split_post : LoopPost c 0 line.length T (start0 c s) (split c delim s) (decodeRow c delim line)
    (openLenRow c delim line) :=
  split_spec hc hd hd0 hs.nul hs.mem hs.idle

theorem split_accepts {fs : List Bytes} (h : decodeRow c delim line = (fs, .eol)) :
    Accepts c (split c delim s) fs := by
  have := split_post hc hd hd0 hs
  rw [h] at this
  unfold LoopPost Outcome at this
  simp only [End.stringError, End.throwError, ite_self] at this
  obtain ⟨s', h1, h2, h3, h4, ds, h5, h6, h7⟩ := this
  refine ⟨s', h1, ?_, ?_, h7⟩
  · rw [h3]; exact ErrSt.valid_clear _ _
  · rw [columns, h6]; exact h5.columns

theorem split_rejects {fs : List Bytes} {e : End} {m : Bytes} (h : decodeRow c delim line = (fs, e))
    (h1 : e.stringError c.multiline line.length = some m)
    (h2 : e.throwError c.multiline line.length = some m) : Rejects c (split c delim s) m := by
  have := split_post hc hd hd0 hs
  rw [h] at this
  unfold LoopPost Outcome at this
  rw [h1, h2] at this
  have hne := stringError_ne_nil h1
  unfold Rejects
  cases hm : c.mode with
  | throw =>
    simp only [hm, if_true] at this
    obtain ⟨s', e1, _⟩ := this
    exact ⟨s', e1⟩
  | string =>
    simp only [hm, reduceCtorEq, if_false] at this
    obtain ⟨s', e1, _, e2, _⟩ := this
    refine ⟨s', e1, ?_, ?_⟩
    · rw [e2]; exact ErrSt.valid_set (by simp) hne _
    · rw [e2]; rfl
  | bool =>
    simp only [hm, reduceCtorEq, if_false] at this
    obtain ⟨s', e1, _, e2, _⟩ := this
    exact ⟨s', e1, by rw [e2]; exact ErrSt.valid_set (by simp) hne _⟩

/-- Splitting always returns or throws. -/
theorem split_total : ∃ s', (split c delim s = .ok () s' ∨ ∃ m, split c delim s = .exc m s') ∧
    Frame 0 line.length (start0 c s) s' := by
  have := split_post hc hd hd0 hs
  unfold LoopPost Outcome at this
  split at this
  · obtain ⟨s', e1, e2, _⟩ := this; exact ⟨s', .inr ⟨_, e1⟩, e2⟩
  · obtain ⟨s', e1, e2, _⟩ := this; exact ⟨s', .inl e1, e2⟩

end
end Ssp

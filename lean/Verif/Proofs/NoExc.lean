import Verif.Model.Parser
/-!
# Reading lines throws nothing
-/
namespace Ssp

/-- the operation never throws -/
structure NoExc {σ α : Type} (m : M σ α) : Prop where
  no : ∀ s e s', m s ≠ .exc e s'

namespace NoExc
variable {σ α β : Type}

theorem bind {m : M σ α} {f : α → M σ β} (h : NoExc m) (hf : ∀ a, NoExc (f a)) : NoExc (m >>= f) := by
  refine ⟨fun s e s' he => ?_⟩
  rw [M.bind_apply] at he
  cases hm : m s with
  | ok a s1 => rw [hm] at he; exact (hf a).no s1 e s' he
  | exc e1 s1 => exact h.no s e1 s1 hm
  | ub => rw [hm] at he; cases he
  | nofuel => rw [hm] at he; cases he

theorem pure (a : α) : NoExc (Pure.pure a : M σ α) := ⟨fun _ _ _ h => by cases h⟩
theorem get : NoExc (M.get : M σ σ) := ⟨fun _ _ _ h => by cases h⟩
theorem modify (f : σ → σ) : NoExc (M.modify f) := ⟨fun _ _ _ h => by cases h⟩
theorem ub : NoExc (M.ub : M σ α) := ⟨fun _ _ _ h => by cases h⟩
theorem nofuel : NoExc (M.nofuel : M σ α) := ⟨fun _ _ _ h => by cases h⟩

theorem ite {p : Prop} [Decidable p] {m m' : M σ α} (h : NoExc m) (h' : NoExc m') : NoExc (if p then m else m') := by
  split
  · exact h
  · exact h'

end NoExc

namespace Io

theorem noexc_reallocIf (env : Env) (p : Prop) [Decidable p] (n : Nat) : NoExc (reallocIf env p n) := by
  refine ⟨fun s e s' h => ?_⟩
  unfold reallocIf at h
  split at h <;> cases h

theorem noexc_wr (p : Nat) (b : Byte) : NoExc (wr p b) := by
  refine ⟨fun s e s' h => ?_⟩
  unfold wr at h
  split at h <;> cases h

theorem noexc_rd (p : Nat) : NoExc (rd p) := by
  refine ⟨fun s e s' h => ?_⟩
  unfold rd at h
  cases hg : s.mem[p]? <;> rw [hg] at h <;> cases h

theorem noexc_rdCsv (ptr : Option Bytes) (i : Nat) : NoExc (rdCsv ptr i) := by
  refine ⟨fun s e s' h => ?_⟩
  unfold rdCsv at h
  cases ptr with
  | none => cases h
  | some d => simp only at h; cases hg : d[i]? <;> rw [hg] at h <;> cases h

theorem noexc_strlenLine : NoExc strlenLine := by
  refine ⟨fun s e s' h => ?_⟩
  unfold strlenLine at h
  cases hg : strlen s.mem <;> rw [hg] at h <;> cases h

theorem noexc_copyTo (p : Nat) (b : Bytes) : NoExc (copyTo p b) := by
  refine ⟨fun s e s' h => ?_⟩
  unfold copyTo at h
  split at h <;> cases h

theorem noexc_bufLoop (env : Env) (ptr : Option Bytes) (size : Nat) : ∀ f used, NoExc (bufLoop env ptr size f used)
  | 0, _ => .nofuel
  | f + 1, used => by
    unfold bufLoop
    refine .bind .get fun s => .ite ?_ (.bind (noexc_wr ..) fun _ => .pure _)
    refine .bind (noexc_reallocIf ..) fun _ => .bind (noexc_rdCsv ..) fun c => .bind (.modify _) fun _ =>
      .bind (noexc_wr ..) fun _ => .ite (.bind (noexc_wr ..) fun _ => .pure _) (noexc_bufLoop env ptr size f _)

theorem noexc_fgets (d : Bytes) : NoExc (fgets d) := by
  unfold fgets
  exact .bind .get fun s => .ite (.pure _) (.bind (.modify _) fun _ => .pure _)

theorem noexc_fgetsLoop (env : Env) (d : Bytes) : ∀ f used, NoExc (fgetsLoop env d f used)
  | 0, _ => .nofuel
  | f + 1, used => by
    unfold fgetsLoop
    refine .bind (noexc_fgets d) fun r => ?_
    cases r with
    | none => exact .pure _
    | some buff =>
      refine .bind noexc_strlenLine fun k => ?_
      cases strlen buff with
      | none => exact .ub
      | some b =>
        refine .bind .get fun s => .bind (noexc_reallocIf ..) fun _ => .bind (noexc_copyTo ..) fun _ =>
          .bind (noexc_wr ..) fun _ => .ite .ub (.bind (noexc_rd _) fun c => .ite (.pure _) (noexc_fgetsLoop env d f _))

theorem noexc_getLine (env : Env) (src : Src) : NoExc (getLine env src) := by
  unfold getLine
  cases src with
  | file u d =>
    refine .bind ?_ fun r => .bind (.modify _) fun _ => .pure _
    unfold getLineFile
    refine .ite ?_ ?_
    · unfold getlinePosix
      exact .bind .get fun s => .ite (.bind (noexc_reallocIf ..) fun _ => .pure _)
        (.bind (noexc_reallocIf ..) fun _ => .bind (.modify _) fun _ => .pure _)
    · unfold getlinePortable
      exact .bind .get fun s => .bind (noexc_reallocIf ..) fun _ => .bind (noexc_wr ..) fun _ => noexc_fgetsLoop ..
  | buf p n =>
    unfold getLineBuffer
    exact .bind .get fun s => .ite (.pure _) (.bind (noexc_reallocIf ..) fun _ => .bind (noexc_bufLoop ..) fun _ => .pure _)

end Io

namespace Reader

theorem noexc_getLineNext (x : Ctx) : NoExc (getLineNext x) := by
  refine ⟨fun s e s' h => ?_⟩
  unfold getLineNext at h
  cases hg : Io.getLine x.env x.src s.ioNext with
  | exc e1 io => exact (Io.noexc_getLine _ _).no _ _ _ hg
  | ok r io => rw [hg] at h; cases h
  | ub => rw [hg] at h; cases h
  | nofuel => rw [hg] at h; cases h

theorem noexc_wrNext (p : Nat) (b : Byte) : NoExc (wrNext p b) := by
  refine ⟨fun s e s' h => ?_⟩
  unfold wrNext at h
  split at h <;> cases h

theorem noexc_removeEolNext (n : Nat) : NoExc (removeEolNext n) := by
  unfold removeEolNext
  refine .bind .get fun s => ?_
  cases eolSize s.next.conv.spl.mem n with
  | none => exact .ub
  | some p => exact .bind (.modify _) fun _ => .ite (.pure _) (.bind (noexc_wrNext ..) fun _ => .pure _)

theorem noexc_readNextLoop (x : Ctx) : ∀ f, NoExc (readNextLoop x f)
  | 0 => .nofuel
  | f + 1 => by
    unfold readNextLoop
    refine .bind (.modify _) fun _ => .bind .get fun s => .bind (.ite (noexc_wrNext ..) (.pure _)) fun _ =>
      .bind (.modify _) fun _ => .bind (noexc_getLineNext x) fun r => ?_
    cases r with
    | none => exact .pure _
    | some k => exact .bind (noexc_removeEolNext _) fun _ => .ite (noexc_readNextLoop x f) (.bind (.modify _) fun _ => .pure _)

theorem noexc_readNext (x : Ctx) : NoExc (readNext x) := by
  unfold readNext
  refine .bind ?_ fun _ => noexc_readNextLoop x _
  refine ⟨fun s e s' h => ?_⟩
  cases h

end Reader

theorem Parser.noexc_ignoreNext (x : Ctx) : NoExc (Parser.ignoreNext x) := by
  refine ⟨fun s e s' h => ?_⟩
  unfold Parser.ignoreNext Parser.onRd at h
  cases hg : Reader.readNext x s.rd with
  | exc e1 r => exact (Reader.noexc_readNext _).no _ _ _ hg
  | ok b r => rw [hg] at h; cases h
  | ub => rw [hg] at h; cases h
  | nofuel => rw [hg] at h; cases h

end Ssp

import Verif.Model.SplitCost
import Verif.Proofs.Count
import Verif.Proofs.SplitBasic
/-! # Proofs about the counted splitter: it is the splitter, and it counts a linear amount -/
namespace Ssp
namespace Spl

theorem bind_assoc {α β γ : Type} (m : M Spl α) (f : α → M Spl β) (g : β → M Spl γ) :
    (m >>= f) >>= g = m >>= fun a => f a >>= g := funext (M.bind_assoc_apply m f g)

theorem erase_rd (p : Nat) : (rdK p).erase = rd p := rfl

theorem erase_strncmpEq : ∀ (d : Bytes) (p : Nat), (strncmpEqK p d).erase = strncmpEq p d
  | [], _ => rfl
  | _ :: ds, p => by
    unfold strncmpEqK strncmpEq
    simp only [erase_bind, erase_ite, erase_rd, erase_pure, erase_strncmpEq ds (p + 1)]

theorem erase_matchDelim (p : Nat) (d : Delim) : (matchDelimK p d).erase = matchDelim p d := by
  cases d with
  | chr b => unfold matchDelimK matchDelim; simp only [erase_bind, erase_rd, erase_pure]
  | str d => exact erase_strncmpEq d p

theorem erase_skipWhile (set : List Byte) : ∀ (f p : Nat), (skipWhileK set f p).erase = skipWhile set f p
  | 0, _ => rfl
  | f + 1, p => by
    unfold skipWhileK skipWhile
    simp only [erase_bind, erase_ite, erase_rd, erase_pure, erase_skipWhile set f (p + 1)]

theorem erase_trim (set : List Byte) (p : Nat) : (trimIfEnabledK set p).erase = trimIfEnabled set p := by
  funext s
  unfold K.erase trimIfEnabledK trimIfEnabled
  split
  · rfl
  · exact congrFun (erase_skipWhile set _ p) s

theorem erase_jump (c : Cfg) : (shiftAndJumpEscapeK c).erase = shiftAndJumpEscape c := by
  unfold shiftAndJumpEscapeK shiftAndJumpEscape shiftAndSetCurrentK
  simp only [erase_bind, erase_of, erase_free]

theorem erase_shiftIfEscaped (c : Cfg) (p : Nat) : (shiftIfEscapedK c p).erase = shiftIfEscaped c p := by
  unfold shiftIfEscapedK shiftIfEscaped
  simp only [erase_ite, erase_bind, erase_rd, erase_pure, erase_free, erase_jump]

theorem erase_matchDelimiter (c : Cfg) (d : Delim) (p : Nat) : (matchDelimiterK c d p).erase = matchDelimiter c d p := by
  unfold matchDelimiterK matchDelimiter
  simp only [erase_ite, erase_bind, erase_rd, erase_pure, erase_trim, erase_matchDelim, erase_shiftIfEscaped]

theorem erase_shiftAndPush : shiftAndPushK.erase = shiftAndPush := by
  unfold shiftAndPushK shiftAndPush shiftAndSetCurrentK
  simp only [erase_bind, erase_of]

theorem erase_shiftPushNext (n : Nat) : (shiftPushAndStartNextK n).erase = shiftPushAndStartNext n := by
  unfold shiftPushAndStartNextK shiftPushAndStartNext
  simp only [erase_bind, erase_free, erase_shiftAndPush]

theorem erase_readNormal (c : Cfg) (d : Delim) : ∀ f, (readNormalK c d f).erase = readNormal c d f
  | 0 => rfl
  | f + 1 => by
    unfold readNormalK readNormal
    simp only [erase_ite, erase_bind, erase_free, erase_matchDelimiter, erase_shiftAndPush, erase_shiftPushNext,
      erase_readNormal c d f]

theorem erase_readQuoted (c : Cfg) (q : Byte) (d : Delim) : ∀ f, (readQuotedK c q d f).erase = readQuoted c q d f
  | 0 => rfl
  | f + 1 => by
    unfold readQuotedK readQuoted shiftAndSetCurrentK
    simp only [erase_ite, erase_bind, erase_rd, erase_of, erase_free, erase_matchDelimiter, erase_shiftAndPush,
      erase_shiftPushNext, erase_jump, erase_readQuoted c q d f, bind_assoc]

theorem erase_read (c : Cfg) (d : Delim) : (readK c d).erase = read c d := by
  unfold readK read
  cases c.quote with
  | none => simp only [erase_bind, erase_free, erase_readNormal]
  | some q => simp only [erase_ite, erase_bind, erase_rd, erase_free, erase_readNormal, erase_readQuoted]

theorem erase_readLoop (c : Cfg) (d : Delim) : ∀ f, (readLoopK c d f).erase = readLoop c d f
  | 0 => rfl
  | f + 1 => by
    unfold readLoopK readLoop
    simp only [erase_ite, erase_bind, erase_free, erase_pure, erase_read, erase_readLoop c d f]

theorem erase_splitImpl (c : Cfg) (d : Delim) : (splitImplK c d).erase = splitImpl c d := by
  unfold splitImplK splitImpl
  simp only [erase_bind, erase_free, erase_trim, erase_readLoop]

theorem erase_splitImplSelectDelim (c : Cfg) (delim : Bytes) :
    (splitImplSelectDelimK c delim).erase = splitImplSelectDelim c delim := by
  unfold splitImplSelectDelimK splitImplSelectDelim
  rw [erase_bind, erase_free]
  congr 1
  funext _
  match delim with
  | [] => rfl
  | [b] => exact erase_splitImpl c _
  | _ :: _ :: _ => exact erase_splitImpl c _

theorem erase_split (c : Cfg) (delim : Bytes) : (splitK c delim).erase = split c delim := by
  unfold splitK split
  rw [erase_bind, erase_free]
  simp only [erase_splitImplSelectDelim]

theorem erase_resplit (c : Cfg) (n : Nat) (delim : Bytes) : (resplitK c n delim).erase = resplit c n delim := by
  unfold resplitK resplit
  rw [erase_bind, erase_free]
  congr 1
  funext s
  rw [erase_ite, erase_free]
  congr 1
  cases s.data.getLast? with
  | none => rfl
  | some p =>
    show K.erase (if _ then _ else _) = _
    rw [erase_ite, erase_bind, erase_of, erase_free]
    simp only [erase_splitImplSelectDelim]

end Spl
end Ssp

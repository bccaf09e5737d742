import Verif.Spec.Cost
import Verif.Spec.Lines
import Verif.Proofs.CostBound
import Verif.Proofs.SplitChain
import Verif.Props.Split
import Verif.Proofs.MachineJoin
/-! # C69: the work of splitting is linear in the line -/
namespace Ssp
open Spec Spl

/-- The counting functions do, apart from counting, exactly what the functions of the model do. -/
theorem C69_counting_changes_nothing (c : Cfg) (delim : Bytes) (size : Nat) (s : Spl) :
    (splitK c delim s).1 = split c delim s ∧ (resplitK c size delim s).1 = resplit c size delim s :=
  ⟨congrFun (erase_split c delim) s, congrFun (erase_resplit c size delim) s⟩

/-- C69: whatever the setup and the line, splitting a line looks at its bytes, moves them and notes columns at most
`(|delimiter| + 13) * (|line| + 1)` times altogether, also when it ends with an error. -/
theorem C69_split_is_linear {c : Cfg} (hc : c.WF) {delim line T : Bytes} {s : Spl} (hd : NUL ∉ delim) (hs : Holds s line T) :
    (splitK c delim s).2 ≤ (delim.length + 13) * (line.length + 1) := by
  have hnul : NulAt line.length { s with data := [], begin_ := 0, lineGen := s.gen } := by
    unfold NulAt; dsimp only; rw [hs.mem]; simp
  have h : Within (splitK c delim s) (pot (delim.length + 1) line.length + delim.length + 11) fun _ _ _ => True := by
    unfold splitK
    exact Within.bind (within_modify (within_select hc hd hs.idle hnul (Nat.zero_le _) (Nat.le_refl _)))
  have := h.1
  rw [Nat.mul_add]
  unfold pot at this
  rw [show delim.length + 1 + 12 = delim.length + 13 by omega] at this
  omega

/-- Every byte is counted: a line of `n` bytes without special characters takes at least `n` steps. -/
example : (splitK {} (bs ",") { mem := bs "ab,c" ++ [NUL] }).2 = 11 := by decide +kernel
/-- non-vacuity: spacing, quotes, doubled quotes and escapes -/
example : (splitK { quote := some 34, escape := [92], trimL := [32, 9], trimR := [32, 9], mode := .string } (bs "::") { mem := bs "  \"a\"\"b\\\"\"  ::  c\\ d  ::e" ++ [NUL] }).2 ≤ (2 + 13) * (29 + 1) := by decide +kernel

theorem chop_short {l : Bytes} (h : l.getLast? = some LF) : (chop l).length + 1 ≤ l.length := by
  have h1 := congrArg List.length (chop_eol l)
  rw [List.length_append] at h1
  have h2 : 1 ≤ (eolOf l).length := by unfold eolOf; rw [if_pos h]; split <;> simp
  omega

theorem chops_short : ∀ (ls : List Bytes), (∀ i l, ls[i]? = some l → i + 1 < ls.length → l.getLast? = some LF) →
    ((ls.map chop).map fun l => l.length + 1).sum ≤ ls.flatten.length + 1
  | [], _ => by simp
  | [l], _ => by
    have h1 := congrArg List.length (chop_eol l)
    rw [List.length_append] at h1
    simp; omega
  | l :: l' :: ls, h => by
    have h1 := chop_short (h 0 l rfl (by simp))
    have h2 := chops_short (l' :: ls) fun i x hx hi => h (i + 1) x hx (by simp at hi ⊢; omega)
    rw [List.map_cons, List.map_cons, List.sum_cons, List.flatten_cons, List.length_append]
    omega

/-- C69: splitting all lines of a text, each once and by whatever splitter, is linear in the text. -/
theorem C69_all_lines {c : Cfg} (hc : c.WF) {delim text : Bytes} {ss : List Spl} (hd : NUL ∉ delim)
    (hs : ∀ p ∈ (lines text).zip ss, ∃ T, Holds p.2 p.1 T) :
    (((lines text).zip ss).map fun p => (splitK c delim p.2).2).sum ≤ (delim.length + 13) * (text.length + 1) := by
  have h1 := chops_short (rawLines text) fun i l => rawLines_lf text
  rw [rawLines_flatten] at h1
  have h2 : ∀ (ls : List Bytes) (ss : List Spl), (∀ p ∈ ls.zip ss, ∃ T, Holds p.2 p.1 T) →
      ((ls.zip ss).map fun p => (splitK c delim p.2).2).sum ≤ (delim.length + 13) * (ls.map fun l => l.length + 1).sum := by
    intro ls
    induction ls with
    | nil => intro ss _; simp
    | cons l ls ih =>
      intro ss hs
      cases ss with
      | nil => simp
      | cons s ss =>
        obtain ⟨T, hT⟩ := hs (l, s) (by simp)
        have h3 := C69_split_is_linear hc hd hT
        have h4 := ih ss fun p hp => hs p (by rw [List.zip_cons_cons]; exact List.mem_cons_of_mem _ hp)
        rw [List.zip_cons_cons, List.map_cons, List.sum_cons, List.map_cons, List.sum_cons, Nat.mul_add]
        exact Nat.add_le_add h3 h4
  exact Nat.le_trans (h2 _ _ hs) (Nat.mul_le_mul_left _ h1)

theorem Ranges.length_eq {mem : Bytes} : ∀ {lo hi : Nat} {ds : List (Nat × Nat)} {fs : List Bytes}, Ranges mem lo hi ds fs → ds.length = fs.length
  | _, _, [], [], _ => rfl
  | _, _, _ :: _, _ :: _, h => by simp [Ranges.length_eq h.2.2.2]
  | _, _, [], _ :: _, h => h.elim
  | _, _, _ :: _, [], h => h.elim

/-- Going on with a row that is open behind `text`: work for the new bytes, and a step for every column of the row so far. -/
theorem resplit_cost {c : Cfg} (hc : c.WF) {delim text more T : Bytes} {s : Spl} {size : Nat}
    (hd0 : NUL ∉ delim) (hml : c.multiline = true) (hk : Known c delim text s) (hu : s.unterminatedQuote = true)
    (hsz : s.end_ - s.escaped + more.length ≤ size) :
    (resplitK c size delim (s.extend more T)).2 ≤ (delim.length + 13) * (more.length + 1) + (decodeRow c delim text).1.length ∧
    (decodeRow c delim text).1.length ≤ (resplitK c size delim (s.extend more T)).2 := by
  obtain ⟨k1, ⟨N, T0, o, k2⟩, k3⟩ := hk
  generalize hdr : decodeRow c delim text = dr at k2 k3
  obtain ⟨fs, e⟩ := dr
  obtain ⟨l0, hl⟩ := k2
  cases e with
  | openQuote a =>
    obtain ⟨ds, P, q, G, l1, l2, l3, l4, l5, l6, l7, l8, _⟩ := hl
    have hsub : s.end_ - s.escaped = P.length + 1 + a.length := by omega
    have hm : (s.extend more T).mem = P ++ (q :: (a ++ (more ++ NUL :: T))) := by
      simp only [extend, hsub, l3]
      rw [show P ++ q :: (a ++ (G ++ NUL :: T0)) = (P ++ q :: a) ++ (G ++ NUL :: T0) by simp,
        List.take_append_of_le_length (by simp; omega), List.take_of_length_le (by simp; omega)]
      simp
    have hdat : (s.extend more T).data = ds ++ [(0, P.length + 1)] := by simpa [extend] using l4
    have hend : (s.extend more T).end_ = P.length + 1 + a.length + G.length := by simpa [extend] using l8
    have hesc : (s.extend more T).escaped = G.length := by simpa [extend] using l7
    have huq : (s.extend more T).unterminatedQuote = true := by simpa [extend] using hu
    generalize s.extend more T = u at hm hdat hend hesc huq
    have hlen : ds.length = fs.length := Ranges.length_eq l1
    have hgl : u.data.getLast? = some (0, P.length + 1) := by rw [hdat]; simp
    have hunf : resplitK c size delim u = (K.bind (K.of (M.modify fun s =>
          { s with
            data := s.data.dropLast.map (fun (b, e) => (b - 0, e - 0))
            lineGen := s.gen
            begin_ := P.length + 1 - 0 - 1
            end_ := s.end_ - 0 - s.escaped
            curr := s.end_ - 0 - s.escaped
            resplitting := true }) fun s => s.data.length - 1) fun _ => splitImplSelectDelimK c delim) u := by
      unfold resplitK
      show (K.bind (K.free M.get) _) u = _
      unfold K.bind
      simp only [K.free, K.of, M.get_apply]
      rw [if_neg (by simp [l2, hml, hdat, huq])]
      rw [hgl]
      dsimp only
      rw [if_neg (by omega)]
      simp only [Nat.zero_add]
      rfl
    have h : Within (resplitK c size delim u) (pot (delim.length + 1) more.length + delim.length + 12 + ds.length) fun _ _ _ => True := by
      rw [hunf]
      refine Within.bind (within_of (by rw [hdat]; simp) fun _ t ht => ?_)
      cases ht
      refine within_reselect (e := P.length + 1 + a.length + more.length) hc hd0 l2 hml rfl ?_ ?_ rfl (x := q) ?_ (hc.ql q l2) ?_
      · unfold NulAt; dsimp only; rw [hm]
        rw [show P ++ q :: (a ++ (more ++ NUL :: T)) = (P ++ q :: (a ++ more)) ++ NUL :: T by simp]
        rw [List.getElem?_append_right (by simp; omega)]
        simp
        rw [show P.length + 1 + a.length + more.length - (P.length + (a.length + more.length + 1)) = 0 by omega]
        rfl
      · dsimp only; omega
      · dsimp only; rw [hm]; simp
      · dsimp only
        rw [show P.length + 1 + a.length + more.length - (u.end_ - 0 - u.escaped) = more.length by omega, hdat]
        simp
    refine ⟨?_, ?_⟩
    · have := h.1
      show _ ≤ _ + fs.length
      rw [Nat.mul_add]
      unfold pot at this
      rw [show delim.length + 1 + 12 = delim.length + 13 by omega] at this
      omega
    · show fs.length ≤ _
      rw [hunf]
      unfold K.bind
      simp only [K.of, M.modify_apply]
      rw [hdat]
      simp
      omega
  | mismatch rem b => obtain ⟨ds, p, _, _, _, l⟩ := hl; rw [l] at hu; cases hu
  | eol => obtain ⟨ds, _, _, l⟩ := hl; rw [l] at hu; cases hu
  | eolEscape => obtain ⟨ds, _, _, l⟩ := hl; rw [l] at hu; cases hu
  | openEscape => obtain ⟨ds, _, _, l⟩ := hl; rw [l] at hu; cases hu

theorem CountedChain.chain {c : Cfg} {delim text : Bytes} {res : Res Spl Unit} {n k : Nat} (h : CountedChain c delim text res n k) :
    Chain c delim text res := by
  induction h with
  | first h => exact .first h
  | more _ h1 h2 h3 h4 ih => exact .more ih h1 h2 h3 h4

/-- C72, rows of several lines: the work is linear in the text and the number of pieces, and beyond that every piece but the
first looks once at the columns completed before it.

Partial: linear would be without the last summand; it is there, see `C72_columns_are_visited_again`. -/
theorem C72_pieces_partial {c : Cfg} (hc : c.WF) {delim text : Bytes} {res : Res Spl Unit} {n k : Nat} (hd : delim ≠ []) (hd0 : NUL ∉ delim)
    (hml : c.multiline = true) (h : CountedChain c delim text res n k) :
    1 ≤ k ∧ n ≤ (delim.length + 13) * (text.length + k) + (k - 1) * (decodeRow c delim text).1.length := by
  induction h with
  | first hs => exact ⟨Nat.le_refl _, by have := C69_split_is_linear hc hd0 hs; simpa using this⟩
  | @more text more T s size n k hch hu hn hj hsz ih =>
    obtain ⟨ih1, ih⟩ := ih
    refine ⟨by omega, ?_⟩
    obtain ⟨s1, e1, hk, _⟩ := (chain_known hc hd hd0 hml hch.chain).2.resolve_right (by rintro ⟨_, _, h, _⟩; cases h)
    cases e1
    have h1 := (resplit_cost (more := more) (T := T) hc hd0 hml hk hu hsz).1
    obtain ⟨a, ha⟩ := hk.uq_iff.mp hu
    have h2 : decodeRow c delim text = ((decodeRow c delim text).1, .openQuote a) := by rw [← ha]
    have h3 : (decodeRow c delim text).1.length ≤ (decodeRow c delim (text ++ more)).1.length := by
      rw [decodeRow_resume hc hj h2]; simp
    have h4 : (k - 1) * (decodeRow c delim text).1.length + (decodeRow c delim text).1.length = k * (decodeRow c delim text).1.length := by
      obtain ⟨j, rfl⟩ : ∃ j, k = j + 1 := ⟨k - 1, by omega⟩
      rw [Nat.add_sub_cancel, Nat.add_mul, Nat.one_mul]
    have h5 : k * (decodeRow c delim text).1.length ≤ k * (decodeRow c delim (text ++ more)).1.length := Nat.mul_le_mul_left _ h3
    rw [Nat.add_sub_cancel]
    have h6 : (delim.length + 13) * ((text ++ more).length + (k + 1)) =
        (delim.length + 13) * (text.length + k) + (delim.length + 13) * (more.length + 1) := by
      rw [← Nat.mul_add]; congr 1; simp; omega
    omega

/-- Not linear in the row: going on with a row looks at all columns completed so far, however short the new piece is.  So a row with
`m` columns and a quoted field over `m` lines behind them takes at least `m * m` steps. -/
theorem C72_columns_are_visited_again {c : Cfg} (hc : c.WF) {delim text more T : Bytes} {s : Spl} {size : Nat} (hd : delim ≠ []) (hd0 : NUL ∉ delim)
    (hml : c.multiline = true) (h : Chain c delim text (.ok () s)) (hu : s.unterminatedQuote = true)
    (hsz : s.end_ - s.escaped + more.length ≤ size) :
    (decodeRow c delim text).1.length ≤ (resplitK c size delim (s.extend more T)).2 := by
  obtain ⟨s1, e1, hk, _⟩ := (chain_known hc hd hd0 hml h).2.resolve_right (by rintro ⟨_, _, h, _⟩; cases h)
  cases e1
  exact (resplit_cost hc hd0 hml hk hu hsz).2

/-- non-vacuity: the row `a,"b\"` + `\nc",d` (C12_chain_exists), counted -/
example : ∃ n, CountedChain mlCfg (bs ",") (bs "a,\"b\\\"" ++ bs "\nc\",d")
    (resplit mlCfg 11 (bs ",") (mlFirst.extend (bs "\nc\",d") (bs "zz"))) n 2 :=
  have h : CountedChain mlCfg (bs ",") (bs "a,\"b\\\"") (.ok () mlFirst) _ 1 :=
    mlFirst_eq ▸ CountedChain.first (T := bs "old") (s := { mem := bs "a,\"b\\\"" ++ NUL :: bs "old" }) ⟨rfl, by decide, rfl⟩
  ⟨_, .more h (by decide +kernel) (by decide) (.inl ⟨by decide, by intro x hx; cases hx; decide⟩) (by decide +kernel)⟩
example : (resplitK mlCfg 11 (bs ",") (mlFirst.extend (bs "\nc\",d") (bs "zz"))).2 = 13 := by decide +kernel

end Ssp

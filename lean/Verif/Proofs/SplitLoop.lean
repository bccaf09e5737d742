import Verif.Proofs.SplitRefine
/-!
# The in-place splitter computes `Spec.decode`: the loop over the fields, `split` and `resplit`
-/
namespace Ssp

/-- `n` bytes of `mem` from offset `b` -/
def slice (mem : Bytes) (b n : Nat) : Bytes := (mem.drop b).take n

/-- The byte ranges `ds` lie in `lo ≤ · ≤ hi`, in order and without overlap, and `fs` are the bytes in
them. -/
def Ranges (mem : Bytes) : Nat → Nat → List (Nat × Nat) → List Bytes → Prop
  | lo, hi, [], [] => lo ≤ hi
  | lo, hi, (b, e) :: ds, f :: fs =>
    lo ≤ b ∧ e = b + f.length ∧ slice mem b f.length = f ∧ Ranges mem e hi ds fs
  | _, _, _, _ => False

theorem Ranges.le {mem : Bytes} : ∀ {lo hi : Nat} {ds : List (Nat × Nat)} {fs : List Bytes},
    Ranges mem lo hi ds fs → lo ≤ hi
  | _, _, [], [], h => h
  | lo, hi, (b, e) :: ds, f :: fs, h => by
    obtain ⟨h1, h2, h3, h4⟩ := h
    have := h4.le
    omega
  | _, _, [], _ :: _, h => h.elim
  | _, _, _ :: _, [], h => h.elim

theorem Ranges.mono {mem : Bytes} : ∀ {lo hi hi' : Nat} {ds : List (Nat × Nat)} {fs : List Bytes},
    Ranges mem lo hi ds fs → hi ≤ hi' → Ranges mem lo hi' ds fs
  | _, _, _, [], [], h, h' => Nat.le_trans h h'
  | lo, hi, _, (b, e) :: ds, f :: fs, h, h' => by
    obtain ⟨h1, h2, h3, h4⟩ := h
    exact ⟨h1, h2, h3, h4.mono h'⟩
  | _, _, _, [], _ :: _, h, _ => h.elim
  | _, _, _, _ :: _, [], h, _ => h.elim

theorem slice_congr {mem mem' : Bytes} {b n k : Nat} (h : mem'.take k = mem.take k) (hk : b + n ≤ k) :
    slice mem' b n = slice mem b n := by
  have e : ∀ m : Bytes, slice m b n = ((m.take k).drop b).take n := by
    intro m
    rw [slice, List.drop_take, List.take_take, Nat.min_eq_left (by omega)]
  rw [e, e, h]

theorem Ranges.congr {mem mem' : Bytes} {k : Nat} (hm : mem'.take k = mem.take k) :
    ∀ {lo hi : Nat} {ds : List (Nat × Nat)} {fs : List Bytes},
    Ranges mem lo hi ds fs → hi ≤ k → Ranges mem' lo hi ds fs
  | _, _, [], [], h, _ => h
  | lo, hi, (b, e) :: ds, f :: fs, h, hk => by
    obtain ⟨h1, h2, h3, h4⟩ := h
    have := h4.le
    exact ⟨h1, h2, by rw [slice_congr hm (by omega), h3], h4.congr hm hk⟩
  | _, _, [], _ :: _, h, _ => h.elim
  | _, _, _ :: _, [], h, _ => h.elim

theorem Ranges.append {mem : Bytes} : ∀ {lo mid lo' hi : Nat} {ds es : List (Nat × Nat)}
    {fs gs : List Bytes}, Ranges mem lo mid ds fs → mid ≤ lo' → Ranges mem lo' hi es gs →
    Ranges mem lo hi (ds ++ es) (fs ++ gs)
  | lo, mid, lo', hi, [], es, [], gs, h, hm, h' => by
    cases es with
    | nil =>
      cases gs with
      | nil => exact Nat.le_trans (Nat.le_trans h hm) h'
      | cons => exact h'.elim
    | cons d es =>
      cases gs with
      | nil => exact h'.elim
      | cons g gs =>
        obtain ⟨b, e⟩ := d
        obtain ⟨h1, h2⟩ := h'
        have h : lo ≤ mid := h
        exact ⟨by omega, h2⟩
  | lo, mid, lo', hi, (b, e) :: ds, es, f :: fs, gs, h, hm, h' => by
    obtain ⟨h1, h2, h3, h4⟩ := h
    exact ⟨h1, h2, h3, h4.append hm h'⟩
  | _, _, _, _, [], _, _ :: _, _, h, _, _ => h.elim
  | _, _, _, _, _ :: _, _, [], _, h, _, _ => h.elim

theorem slice_mid (P f R : Bytes) : slice (P ++ (f ++ R)) P.length f.length = f := by
  simp [slice]

theorem Ranges.one {P f R : Bytes} {lo hi : Nat} (h1 : lo ≤ P.length) (h2 : P.length + f.length ≤ hi) :
    Ranges (P ++ (f ++ R)) lo hi [(P.length, P.length + f.length)] [f] :=
  ⟨h1, rfl, slice_mid P f R, h2⟩

section
open Ssp.Spec

/-- raw length of the part of the text (from inside a field, with `acc` decoded) that belongs to its last field -/
def openLen (c : Cfg) (d : Bytes) (m : Mode) (acc r : Bytes) : Nat :=
  match _h : field c d m acc r with
  | .next _ rest =>
    if _hd : d = [] then 0
    else openLen c d (start c rest).1 [] (start c rest).2
  | _ => acc.length + r.length
termination_by r.length
decreasing_by
  have := field_next_length c d _hd m acc r _ rest _h
  have := start_length_le c rest
  omega

/-- the same for a row -/
def openLenRow (c : Cfg) (d r : Bytes) : Nat :=
  let r' := r.dropWhile (· ∈ c.trimL)
  openLen c d (start c r').1 [] (start c r').2

theorem openLen_next {c : Cfg} {d : Bytes} (hd : d ≠ []) {m : Mode} {acc r f rest : Bytes}
    (h : field c d m acc r = .next f rest) :
    openLen c d m acc r = openLen c d (start c rest).1 [] (start c rest).2 := by
  rw [openLen]
  split
  · rename_i h'; rw [h] at h'; cases h'; rw [dif_neg hd]
  · rename_i h'; exact absurd h (h' _ _)

theorem openLen_stop {c : Cfg} {d : Bytes} {m : Mode} {acc r : Bytes} {e : End}
    (h : field c d m acc r = .stop e) : openLen c d m acc r = acc.length + r.length := by
  rw [openLen]
  split
  · rename_i h'; rw [h] at h'; cases h'
  · rfl

end

namespace Spl
open Ssp.Spec

/-- What a (re)split leaves behind besides the error: `data0` are the ranges known before it, `fs` the
fields it found and `e` how the text ended; `o` is the raw length of an open field. -/
def Left (c : Cfg) (lo N : Nat) (T : Bytes) (data0 : List (Nat × Nat)) (fs : List Bytes) (e : End)
    (o : Nat) (uq0 : Bool) (s' : Spl) : Prop :=
  s'.done = true ∧
  match e with
  | .openQuote a => ∃ ds P q G, Ranges s'.mem lo P.length ds fs ∧ c.quote = some q ∧
      s'.mem = P ++ (q :: (a ++ (G ++ NUL :: T))) ∧ s'.data = data0 ++ ds ++ [(0, P.length + 1)] ∧
      s'.unterminatedQuote = true ∧ s'.begin_ = P.length + 1 ∧ s'.escaped = G.length ∧
      s'.end_ = P.length + 1 + a.length + G.length ∧ P.length + 1 + o = N
  | .mismatch _ _ => ∃ ds p, Ranges s'.mem lo N ds fs ∧ s'.data = data0 ++ ds ++ [(0, p)] ∧ p ≤ N ∧
      s'.unterminatedQuote = uq0
  | _ => ∃ ds, Ranges s'.mem lo N ds fs ∧ s'.data = data0 ++ ds ∧ s'.unterminatedQuote = uq0

/-- Result of a (re)split. -/
def LoopPost (c : Cfg) (lo N : Nat) (T : Bytes) (s : Spl) (res : Res Spl Unit)
    (x : List Bytes × End) (o : Nat) : Prop :=
  Outcome c (x.2.stringError c.multiline N) (x.2.throwError c.multiline N) s res (Frame lo N s)
    (Left c lo N T s.data x.1 x.2 o s.unterminatedQuote)

theorem readLoop_done {c : Cfg} {d : Delim} {s : Spl} {f : Nat} (h : s.done = true) (hf : 0 < f) :
    readLoop c d f s = .ok () s := by
  cases f with
  | zero => omega
  | succ f => simp [readLoop, h]

theorem Outcome.bind {c : Cfg} {d : Delim} {se te : Option Bytes} {s : Spl} {res : Res Spl Unit}
    {F F' P P' : Spl → Prop} {f : Nat} (h : Outcome c se te s res F P) (hF : ∀ s', F s' → F' s')
    (hf : 0 < f) (hd : ∀ s', F s' → P s' → s'.done = true) (hP : ∀ s', F s' → P s' → P' s') :
    Outcome c se te s (res.bind fun _ => readLoop c d f) F' P' := by
  unfold Outcome at *
  split at h
  · obtain ⟨s', h1, h2, h3, h4⟩ := h
    exact ⟨s', by simp [h1, Res.bind], hF _ h2, h3, h4⟩
  · obtain ⟨s', h1, h2, h3, h4⟩ := h
    exact ⟨s', by rw [h1]; exact readLoop_done (hd _ h2 h4) hf, hF _ h2, h3, hP _ h2 h4⟩

section loop
set_option linter.unusedSectionVars false
variable {c : Cfg} (hc : c.WF) {d : Delim} (hd0 : NUL ∉ d.bytes) (hd1 : d.bytes ≠ [])
include hc hd0

/-- `read` at a field boundary -/
theorem read_spec {s : Spl} {pre r T : Bytes} {N : Nat} (hm : s.mem = pre ++ (r ++ NUL :: T))
    (hb : s.begin_ = pre.length) (hr0 : NUL ∉ r) (hrs : s.resplitting = false)
    (hN : N = pre.length + r.length) :
    ∃ s1 pre1, Same pre.length N s s1 ∧
      Post c N s1 pre1 T (read c d s) (field c d.bytes (start c r).1 [] (start c r).2) ∧
      pre.length ≤ pre1.length ∧ pre1.length ≤ N ∧
      (∃ z, pre1 = pre ++ z) ∧
      ((start c r).1 = .quoted → ∃ P q, pre1 = P ++ [q] ∧ c.quote = some q ∧ pre.length ≤ P.length ∧
        P.length + 1 + (start c r).2.length = N) := by
  have hnormal : ∀ k, r.length < k → Post c N { s with escaped := 0, end_ := s.begin_, curr := s.begin_ } pre T
      (readNormal c d k { s with escaped := 0, end_ := s.begin_, curr := s.begin_ })
      (field c d.bytes .normal [] r) := by
    intro k hk
    refine readNormal_spec hc hd0 (r.length + 1) r (by omega) hr0 _ pre [] T k N ?_ hk
      (by simp [hb, hN])
    exact ⟨[], [], [], by simpa using hm, rfl, hb, by simp [hb], rfl, by simp [hb]⟩
  have hlen : r.length < s.mem.length + 1 := by rw [hm]; simp; omega
  simp only [read, M.modify_bind, M.get_bind]
  cases hq : c.quote with
  | none =>
    simp only [M.modify_bind]
    refine ⟨{ s with escaped := 0, end_ := s.begin_, curr := s.begin_ }, pre,
      ⟨Frame.of_mem rfl rfl rfl rfl, rfl, rfl, rfl, rfl⟩, ?_, by omega, by omega, ⟨[], by simp⟩, ?_⟩
    · have hst : start c r = (.normal, r) := by
        cases r <;> simp [start, hq]
      rw [hst]
      exact hnormal _ hlen
    · cases r <;> simp [start, hq]
  | some q =>
    have hq0 : q ≠ NUL := fun h => hc.nul_q (by rw [hq, h])
    dsimp only
    rw [if_neg (by simp [hrs])]
    cases r with
    | nil =>
      rw [rd_bind _ (x := NUL) (A := pre) (B := T) (by simpa using hm) hb]
      rw [if_neg hq0.symm]
      simp only [M.modify_bind]
      refine ⟨{ s with escaped := 0, end_ := s.begin_, curr := s.begin_ }, pre,
        ⟨Frame.of_mem rfl rfl rfl rfl, rfl, rfl, rfl, rfl⟩, ?_, by omega, by omega, ⟨[], by simp⟩,
        by simp [start]⟩
      exact hnormal _ hlen
    | cons x xs =>
      rw [rd_bind _ (x := x) (A := pre) (B := xs ++ NUL :: T) (by simpa using hm) hb]
      by_cases hx : x = q
      · subst hx
        rw [if_pos rfl]
        simp only [M.modify_bind]
        have hst : start c (x :: xs) = (.quoted, xs) := by simp [start, hq]
        rw [hst]
        refine ⟨{ s with escaped := 0, begin_ := s.begin_ + 1, end_ := s.begin_ + 1, curr := s.begin_ + 1 },
          pre ++ [x], ⟨Frame.of_mem rfl rfl rfl rfl, rfl, rfl, rfl, rfl⟩, ?_, by simp, by simp [hN],
          ⟨[x], rfl⟩, fun _ => ⟨pre, x, rfl, rfl, by omega, by simp [hN]; omega⟩⟩
        refine readQuoted_spec hc hd0 hq (xs.length + 1) xs (by omega) (fun h => hr0 (by simp [h])) _
          (pre ++ [x]) [] T _ N ?_ (by simp at hlen; omega) (by simp only [hb, hN, List.length_cons]; omega)
        exact ⟨[], [], [], by simpa using hm, rfl, by simp [hb], by simp [hb], rfl, by simp [hb]⟩
      · rw [if_neg hx]
        simp only [M.modify_bind]
        have hst : start c (x :: xs) = (.normal, x :: xs) := by
          simp [start, hq]; exact fun h => hx h.symm
        rw [hst]
        refine ⟨{ s with escaped := 0, end_ := s.begin_, curr := s.begin_ }, pre,
          ⟨Frame.of_mem rfl rfl rfl rfl, rfl, rfl, rfl, rfl⟩, ?_, by omega, by omega, ⟨[], by simp⟩,
          by simp⟩
        exact hnormal _ hlen

include hd1

/-- The loop, entered behind the reading of one field. -/
theorem loop_spec : ∀ (n : Nat) (r : Bytes), r.length < n →
    ∀ (m : Mode) (acc pre T : Bytes) (N lo : Nat) (s : Spl) (res : Res Spl Unit) (f : Nat),
      (∀ y ∈ r, y ≠ NUL) → Post c N s pre T res (field c d.bytes m acc r) → s.done = false →
      s.resplitting = false → r.length < f → s.mem.length = N + (T.length + 1) →
      lo ≤ pre.length → pre.length ≤ N →
      (m = .quoted → ∃ P q, pre = P ++ [q] ∧ c.quote = some q ∧ lo ≤ P.length ∧ P.length + 1 + (acc.length + r.length) = N) →
      LoopPost c lo N T s
        (res.bind fun _ => readLoop c d f) (decode c d.bytes m acc r) (openLen c d.bytes m acc r) := by
  intro n
  induction n with
  | zero => intro r h; omega
  | succ n ih =>
    intro r hrn m acc pre T N lo s res f hr0 hP hdone hrs hf hlen hlo hpN hqm
    rw [decode]
    split
    · rename_i g rest hfield
      rw [hfield] at hP
      obtain ⟨s', G, h1, h2, h3, h4, h5, h6, h7, h8⟩ := hP
      have hrl := field_next_length c d.bytes hd1 m acc r g rest hfield
      have hrest0 : ∀ y ∈ rest, y ≠ NUL :=
        fun y hy => hr0 y (field_next_sub c d.bytes m acc r g rest hfield y hy)
      rw [dif_neg hd1, h1]
      simp only [Res.bind]
      cases f with
      | zero => omega
      | succ f =>
      simp only [readLoop, M.get_bind, h8, hdone, Bool.false_eq_true, if_false]
      have hN : N = (pre ++ (g ++ G)).length + rest.length := by
        have := h2.len
        rw [h4, hlen] at this
        simp at this ⊢; omega
      have hm' : s'.mem = (pre ++ (g ++ G)) ++ (rest ++ NUL :: T) := by simp [h4]
      obtain ⟨s1, pre1, k1, k2, k3, k4, ⟨z, k5⟩, k6⟩ := read_spec (d := d) hc hd0 (N := N) hm'
        (by simp [h6]; try omega) (fun h => hrest0 _ h rfl) (h2.resplitting.trans hrs) hN
      have hsl := start_length_le c rest
      have hmem1 : s1.mem.take (pre.length + g.length) = pre ++ g := by
        have := k1.frame.mono (lo' := pre.length + g.length) (hi' := N) (by simp; try omega) (Nat.le_refl _)
        rw [this.pre, h4, ← List.append_assoc, List.take_append_of_le_length (by simp)]
        rw [List.take_of_length_le (by simp)]
      have := ih (start c rest).2 (by omega) (start c rest).1 [] pre1 T N (pre.length + g.length) s1
        (read c d s') f ?_ k2 (k1.done.trans (h8.trans hdone))
        (k1.frame.resplitting.trans (h2.resplitting.trans hrs)) (by omega)
        (by rw [k1.frame.len, h2.len, hlen]) (by simp [k5]; try omega) k4
        (fun hm => by
          obtain ⟨P, q, l1, l2, l3, l4⟩ := k6 hm
          exact ⟨P, q, l1, l2, by simp at l3; omega, by simpa using l4⟩)
      · rw [M.bind_eq]
        generalize decode c d.bytes (start c rest).1 [] (start c rest).2 = x at this ⊢
        obtain ⟨fs, e⟩ := x
        have hF1 : Frame lo N s s1 := (h2.mono hlo (Nat.le_refl _)).trans
          (k1.frame.mono (by simp; omega) (Nat.le_refl _))
        have hR1 : ∀ s2 : Spl, Frame (pre.length + g.length) N s1 s2 →
            Ranges s2.mem lo (pre.length + g.length) [(pre.length, pre.length + g.length)] [g] := by
          intro s2 hs2
          refine Ranges.congr (mem := pre ++ (g ++ [])) (k := pre.length + g.length) ?_
            (Ranges.one hlo (by omega)) (Nat.le_refl _)
          rw [hs2.pre, hmem1, List.take_of_length_le (by simp)]
          simp
        unfold LoopPost at this ⊢
        refine Outcome.imp (s := s) (k1.err.trans h3) (k1.uq.trans h7) (fun s2 (hs2 : Frame _ _ _ _) =>
          hF1.trans (hs2.mono (by omega) (Nat.le_refl _))) ?_ this
        intro s2 hs2 hl
        have hR := hR1 s2 hs2
        have hd : s1.data = s.data ++ [(pre.length, pre.length + g.length)] := k1.data.trans h5
        have hu : s1.unterminatedQuote = s.unterminatedQuote := k1.uq.trans h7
        obtain ⟨l0, hl⟩ := hl
        refine ⟨l0, ?_⟩
        cases e with
        | openQuote a =>
          obtain ⟨ds, P, q, G', l1, l2, l3, l4, l5, l6⟩ := hl
          exact ⟨(pre.length, pre.length + g.length) :: ds, P, q, G',
            hR.append (Nat.le_refl _) l1, l2, l3, by simp [l4, hd], l5, by rw [openLen_next hd1 hfield]; exact l6⟩
        | mismatch rem b =>
          obtain ⟨ds, p, l1, l2, l3, l4⟩ := hl
          exact ⟨(pre.length, pre.length + g.length) :: ds, p, hR.append (Nat.le_refl _) l1,
            by simp [l2, hd], l3, l4.trans hu⟩
        | eol =>
          obtain ⟨ds, l1, l2, l3⟩ := hl
          exact ⟨(pre.length, pre.length + g.length) :: ds, hR.append (Nat.le_refl _) l1,
            by simp [l2, hd], l3.trans hu⟩
        | eolEscape =>
          obtain ⟨ds, l1, l2, l3⟩ := hl
          exact ⟨(pre.length, pre.length + g.length) :: ds, hR.append (Nat.le_refl _) l1,
            by simp [l2, hd], l3.trans hu⟩
        | openEscape =>
          obtain ⟨ds, l1, l2, l3⟩ := hl
          exact ⟨(pre.length, pre.length + g.length) :: ds, hR.append (Nat.le_refl _) l1,
            by simp [l2, hd], l3.trans hu⟩
      · intro y hy
        refine hrest0 y ?_
        cases hrr : rest with
        | nil => rw [hrr] at hy; simp [start] at hy
        | cons x xs =>
          rw [hrr] at hy
          simp only [start] at hy
          split at hy
          · simp at hy ⊢; exact Or.inr hy
          · exact hy
    · rename_i g e hfield
      rw [hfield] at hP
      have hP : Outcome _ _ _ _ _ _ _ := hP
      have hlast : e = .eol ∨ e = .eolEscape := field_last_end c d.bytes m acc r g e hfield
      refine Outcome.bind (d := d) hP ?_ (by omega) ?_ ?_
      · intro s' hF; exact hF.mono hlo (Nat.le_refl _)
      · rintro s' hF ⟨G, l1, l2, l3, l4⟩
        exact l4
      · rintro s' hF ⟨G, l1, l2, l3, l4⟩
        have hl : pre.length + g.length ≤ N := by
          have := hF.len
          rw [l1, hlen] at this
          simp at this; omega
        have hR : Ranges s'.mem lo N [(pre.length, pre.length + g.length)] [g] := by
          rw [l1]; exact Ranges.one hlo hl
        refine ⟨l4, ?_⟩
        rcases hlast with rfl | rfl
        · exact ⟨_, hR, l2, l3⟩
        · exact ⟨_, hR, l2, l3⟩
    · rename_i e hfield
      rw [hfield] at hP
      have hP : Outcome _ _ _ _ _ _ _ := hP
      have hm : m = .quoted := field_stop_quoted c d.bytes m acc r e hfield
      refine Outcome.bind (d := d) hP ?_ (by omega) ?_ ?_
      · intro s' hF; exact hF.mono hlo (Nat.le_refl _)
      · rintro s' hF ⟨l1, l2⟩
        exact l1
      · rintro s' hF ⟨l1, l2⟩
        refine ⟨l1, ?_⟩
        cases e with
        | openQuote a =>
          obtain ⟨l2, l3, G, l4, l5, l6, l7⟩ := l2
          obtain ⟨P, q, p1, p2, p3, p4⟩ := hqm hm
          subst p1
          simp only [List.length_append, List.length_cons, List.length_nil, Nat.zero_add] at *
          refine ⟨[], P, q, G, p3, p2, by simpa using l4, by simpa using l3, l2, l5, l6, l7, ?_⟩
          rw [openLen_stop hfield]; exact p4
        | mismatch rem b =>
          exact ⟨[], _, Nat.le_trans hlo hpN, by simpa using l2.2, hpN, l2.1⟩
        | eol => exact ⟨[], Nat.le_trans hlo hpN, by simpa using l2.2, l2.1⟩
        | eolEscape => exact ⟨[], Nat.le_trans hlo hpN, by simpa using l2.2, l2.1⟩
        | openEscape => exact ⟨[], Nat.le_trans hlo hpN, by simpa using l2.2, l2.1⟩


/-- `split_impl` from a field boundary -/
theorem splitImpl_spec {s : Spl} {pre r T : Bytes} {N : Nat} (hm : s.mem = pre ++ (r ++ NUL :: T))
    (hb : s.begin_ = pre.length) (hr0 : NUL ∉ r) (hrs : s.resplitting = false)
    (hN : N = pre.length + r.length) :
    LoopPost c pre.length N T s (splitImpl c d s) (decodeRow c d.bytes r) (openLenRow c d.bytes r) := by
  have hsp := takeWhile_append_dropWhile' c.trimL r
  simp only [splitImpl, M.get_bind]
  rw [M.bind_of_ok (trimIfEnabled_spec c.trimL hc.nul_l hm hb)]
  simp only [M.modify_bind]
  generalize hts : r.takeWhile (· ∈ c.trimL) = ts at *
  unfold decodeRow decodeFields openLenRow
  generalize hr' : r.dropWhile (· ∈ c.trimL) = r' at *
  subst hsp
  generalize hs0 : ({ s with begin_ := s.begin_ + ts.length, done := false } : Spl) = s0
  have e1 : s0.mem = (pre ++ ts) ++ (r' ++ NUL :: T) := by rw [← hs0]; simp [hm]
  obtain ⟨s1, pre1, k1, k2, k3, k4, ⟨z, k5⟩, k6⟩ := read_spec (d := d) (s := s0) hc hd0 (N := N) e1
    (by rw [← hs0]; simp [hb]) (fun h => hr0 (by simp [h])) (by rw [← hs0]; exact hrs) (by rw [hN]; simp; omega)
  have hsl := start_length_le c r'
  have hsame : Same pre.length N { s with done := false } s0 := by
    rw [← hs0]; exact ⟨Frame.of_mem rfl rfl rfl rfl, rfl, rfl, rfl, rfl⟩
  have hlen : s.mem.length = N + (T.length + 1) := by rw [hm, hN]; simp; omega
  have hgo : readLoop c d (s.mem.length + 2) s0 = (read c d s0).bind fun _ => readLoop c d (s.mem.length + 1) := by
    have : s0.done = false := by rw [← hs0]
    simp only [readLoop, M.get_bind, this, Bool.false_eq_true, if_false]
    rfl
  rw [hgo]
  have := loop_spec hc hd0 hd1 ((start c r').2.length + 1) (start c r').2 (by omega) (start c r').1 []
    pre1 T N pre.length s1 (read c d s0) (s.mem.length + 1) ?_ k2
    (k1.done.trans (by rw [← hs0])) (k1.frame.resplitting.trans (by rw [← hs0]; exact hrs))
    (by rw [hlen, hN]; simp; omega) (by rw [k1.frame.len, ← hs0]; exact hlen)
    (by simp at k3; omega) k4
    (fun h => by
      obtain ⟨P, q, l1, l2, l3, l4⟩ := k6 h
      exact ⟨P, q, l1, l2, by simp at l3; omega, by simpa using l4⟩)
  · have hF : Frame pre.length N s s1 := by
      have := hsame.frame.trans (k1.frame.mono (by simp) (Nat.le_refl _))
      exact ⟨this.1, this.2, this.3, this.4, this.5, this.6⟩
    have hd : s1.data = s.data := by rw [k1.data, hsame.data]
    have hu : s1.unterminatedQuote = s.unterminatedQuote := by rw [k1.uq, hsame.uq]
    unfold LoopPost at this ⊢
    rw [hd, hu] at this
    exact Outcome.imp (by rw [k1.err, hsame.err]) (by rw [k1.uq, hsame.uq]) (fun s2 hs2 => hF.trans hs2) (fun _ _ h => h) this
  · intro y hy
    have : y ∈ r' := by
      cases hrr : r' with
      | nil => rw [hrr] at hy; simp [start] at hy
      | cons x xs =>
        rw [hrr] at hy
        simp only [start] at hy
        split at hy
        · simp at hy ⊢; exact Or.inr hy
        · exact hy
    rintro rfl
    exact hr0 (by simp [this])

/-- `split_impl` resumed inside a quoted field -/
theorem splitImpl_resume {s : Spl} {P a r T : Bytes} {q : Byte} {N : Nat} (hq : c.quote = some q)
    (hml : c.multiline = true)
    (hm : s.mem = P ++ (q :: (a ++ (r ++ NUL :: T)))) (hb : s.begin_ = P.length)
    (he : s.end_ = P.length + 1 + a.length) (hcu : s.curr = s.end_)
    (hr0 : NUL ∉ r) (hrs : s.resplitting = true) (hN : N = P.length + 1 + a.length + r.length) :
    LoopPost c P.length N T { s with resplitting := false } (splitImpl c d s)
      (decode c d.bytes .quoted a r) (openLen c d.bytes .quoted a r) := by
  have hq0 : q ≠ NUL := fun h => hc.nul_q (by rw [hq, h])
  have htrim : trimIfEnabled c.trimL s.begin_ s = .ok s.begin_ s := by
    unfold trimIfEnabled
    by_cases h : c.trimL = []
    · simp [h]
    · simp only [h, if_false, skipWhile]
      rw [rd_bind _ hm hb]
      simp [hc.ql q hq]
  simp only [splitImpl, M.get_bind]
  rw [M.bind_of_ok htrim]
  simp only [M.modify_bind]
  have hlen : s.mem.length = N + (T.length + 1) := by rw [hm, hN]; simp; omega
  generalize hs1 : ({ s with done := false, escaped := 0, resplitting := false, begin_ := s.begin_ + 1 } : Spl) = s1
  have hgo : readLoop c d (s.mem.length + 2) { s with begin_ := s.begin_, done := false } =
      (readQuoted c q d (s.mem.length + 1) s1).bind fun _ => readLoop c d (s.mem.length + 1) := by
    rw [readLoop]
    simp only [M.get_bind, Bool.false_eq_true, if_false]
    rw [M.bind_eq]
    congr 1
    simp only [read, M.modify_bind, M.get_bind, hq, hml, hrs]
    simp only [Bool.and_true, if_true, M.modify_bind, ← hs1]
  rw [hgo]
  have hP : Post c N s1 (P ++ [q]) T (readQuoted c q d (s.mem.length + 1) s1) (field c d.bytes .quoted a r) := by
    refine readQuoted_spec hc hd0 hq (r.length + 1) r (by omega) hr0 s1 (P ++ [q]) a T _ N ?_
      (by rw [hm]; simp; omega) (by rw [← hs1]; simp only [he, hN])
    refine ⟨a, [], [], ?_, by simp, ?_, ?_, ?_, ?_⟩
    · rw [← hs1]; simp [hm]
    · rw [← hs1]; simp [hb]
    · rw [← hs1]; simp [hcu, he]
    · rw [← hs1]; rfl
    · rw [← hs1]; simp [he]
  have := loop_spec hc hd0 hd1 (r.length + 1) r (by omega) .quoted a (P ++ [q]) T N P.length s1 _
    (s.mem.length + 1) (fun y hy h => hr0 (h ▸ hy)) hP (by rw [← hs1]) (by rw [← hs1])
    (by rw [hm]; simp; omega) (by rw [← hs1]; exact hlen) (by simp) (by simp [hN]; omega)
    (fun _ => ⟨P, q, rfl, hq, Nat.le_refl _, by omega⟩)
  unfold LoopPost at this ⊢
  have hd : s1.data = s.data := by rw [← hs1]
  have hu : s1.unterminatedQuote = s.unterminatedQuote := by rw [← hs1]
  rw [hd, hu] at this
  refine Outcome.imp (by rw [← hs1]) (by rw [← hs1]) (fun s2 hs2 => ?_) (fun _ _ h => h) this
  rw [← hs1] at hs2
  exact ⟨hs2.1, hs2.2, hs2.3, hs2.4, hs2.5, hs2.6⟩

end loop

/-- the dispatched delimiter -/
theorem select_bytes (c : Cfg) (delim : Bytes) (h : delim ≠ []) (s : Spl) :
    ∃ d : Delim, d.bytes = delim ∧
      splitImplSelectDelim c delim s =
        splitImpl c d { s with err := s.err.clear c.mode, unterminatedQuote := false } := by
  match delim, h with
  | [b], _ => exact ⟨.chr b, rfl, by simp [splitImplSelectDelim, clearError]⟩
  | b :: b' :: bs, _ => exact ⟨.str (b :: b' :: bs), rfl, by simp [splitImplSelectDelim, clearError]⟩

/-- state in which `split` starts reading -/
def start0 (c : Cfg) (s : Spl) : Spl :=
  { s with data := [], begin_ := 0, lineGen := s.gen, err := s.err.clear c.mode,
           unterminatedQuote := false }

/-- `split` computes `Spec.decodeRow`. -/
theorem split_spec {c : Cfg} (hc : c.WF) {delim line T : Bytes} {s : Spl} (hd : delim ≠ [])
    (hd0 : NUL ∉ delim) (hl0 : NUL ∉ line) (hm : s.mem = line ++ NUL :: T)
    (hrs : s.resplitting = false) :
    LoopPost c 0 line.length T (start0 c s) (split c delim s) (decodeRow c delim line) (openLenRow c delim line) := by
  simp only [split, M.modify_bind]
  obtain ⟨d, h1, h2⟩ := select_bytes c delim hd { s with data := [], begin_ := 0, lineGen := s.gen }
  rw [h2, ← h1]
  exact splitImpl_spec (pre := []) hc (h1 ▸ hd0) (h1 ▸ hd) (show s.mem = [] ++ (line ++ NUL :: T) from hm)
    rfl hl0 hrs (by simp)

/-- state in which `resplit` continues reading -/
def restart0 (c : Cfg) (s : Spl) (ds : List (Nat × Nat)) (b e : Nat) : Spl :=
  { s with data := ds, begin_ := b, end_ := e, curr := e, lineGen := s.gen,
           err := s.err.clear c.mode, unterminatedQuote := false }

/-- `resplit` continues `Spec.decode`. -/
theorem resplit_spec {c : Cfg} (hc : c.WF) {delim P a r T : Bytes} {q : Byte} {s : Spl} {newSize : Nat}
    {ds : List (Nat × Nat)} (hd : delim ≠ []) (hd0 : NUL ∉ delim) (hr0 : NUL ∉ r)
    (hq : c.quote = some q) (hml : c.multiline = true)
    (hm : s.mem = P ++ (q :: (a ++ (r ++ NUL :: T)))) (hdata : s.data = ds ++ [(0, P.length + 1)])
    (huq : s.unterminatedQuote = true) (hend : s.end_ = P.length + 1 + a.length + s.escaped)
    (hrs : s.resplitting = false) (hn : P.length ≤ newSize) :
    LoopPost c P.length (P.length + 1 + a.length + r.length) T
      (restart0 c s ds P.length (P.length + 1 + a.length))
      (resplit c newSize delim s) (decode c delim .quoted a r) (openLen c delim .quoted a r) := by
  obtain ⟨d, h1, h2⟩ := select_bytes c delim hd
    { s with data := ds, lineGen := s.gen, begin_ := P.length, end_ := P.length + 1 + a.length,
             curr := P.length + 1 + a.length, resplitting := true }
  have hgo : resplit c newSize delim s = splitImplSelectDelim c delim
      { s with data := ds, lineGen := s.gen, begin_ := P.length, end_ := P.length + 1 + a.length,
               curr := P.length + 1 + a.length, resplitting := true } := by
    simp only [resplit, M.get_bind]
    rw [if_neg (by simp [hq, hml, hdata, huq])]
    rw [hdata]
    simp only [List.getLast?_concat]
    rw [if_neg (by omega)]
    simp only [M.modify_bind, Nat.sub_zero]
    rw [show s.end_ - s.escaped = P.length + 1 + a.length by omega]
    rw [show P.length + 1 - 1 = P.length by omega]
    congr 2
    rw [hdata, List.dropLast_concat]
    exact List.map_id ds
  rw [hgo, h2, ← h1]
  have := splitImpl_resume (c := c) (d := d) (s := { s with data := ds, lineGen := s.gen, begin_ := P.length, end_ := P.length + 1 + a.length, curr := P.length + 1 + a.length, resplitting := true, err := s.err.clear c.mode, unterminatedQuote := false })
    hc (h1 ▸ hd0) (h1 ▸ hd) hq hml hm rfl rfl rfl hr0 rfl rfl
  have e : restart0 c s ds P.length (P.length + 1 + a.length) = { s with data := ds, begin_ := P.length, end_ := P.length + 1 + a.length, curr := P.length + 1 + a.length, lineGen := s.gen, err := s.err.clear c.mode, unterminatedQuote := false, resplitting := false } := by
    simp only [restart0, hrs]
  rw [e]
  exact this

end Spl
end Ssp

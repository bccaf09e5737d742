import Verif.Proofs.Line
/-!
# More about the line readers: how far they look, and how much memory they ask for
-/
namespace Ssp
open Io

/-! ## One round of the portable reader -/

/-- the part of a round behind `fgets` and `strlen`: reallocate, append, terminate, look at the last byte -/
def Io.chunkIn (env : Env) (used : Nat) (chunk : Bytes) : M Io Byte := do
  let s ← M.get
  reallocIf env (s.n ≤ chunk.length + used) (s.n * 2)
  copyTo used chunk
  wr (used + chunk.length) NUL
  rd (used + chunk.length - 1)

theorem strlen_eq {mem : Bytes} {u : Nat} (h : strlen mem = some u) :
    u < mem.length ∧ NUL ∉ mem.take u ∧ mem[u]? = some NUL := by
  unfold strlen at h
  by_cases hm : NUL ∈ mem
  · rw [if_pos hm] at h
    cases h
    induction mem with
    | nil => simp at hm
    | cons b mem ih =>
      by_cases hb : b = NUL
      · subst hb; simp
      · have hm' : NUL ∈ mem := by
          rcases List.mem_cons.mp hm with h | h
          · exact absurd h.symm hb
          · exact h
        obtain ⟨h1, h2, h3⟩ := ih hm'
        rw [List.takeWhile_cons_of_pos (by simpa using hb)]
        simp only [List.length_cons, List.take_succ_cons, List.mem_cons, not_or, List.getElem?_cons_succ]
        exact ⟨by omega, ⟨fun h => hb h.symm, h2⟩, h3⟩
  · rw [if_neg hm] at h; cases h

theorem strlen_of {a b : Bytes} (h : NUL ∉ a) : strlen (a ++ NUL :: b) = some a.length := strlen_line h

theorem realloc_sized (env : Env) (size : Nat) (s : Io) : ∃ s1, realloc env size s = .ok () s1 ∧ s1.Sized ∧ s1.n = size ∧
    s1.curr = s.curr ∧ s1.fpos = s.fpos ∧ s1.mem.take (min size s.mem.length) = s.mem.take size := by
  refine ⟨_, rfl, ?_, rfl, rfl, rfl, ?_⟩
  · unfold Sized; simp; omega
  · simp only [List.take_append, List.take_take, List.length_take]
    rw [Nat.sub_eq_zero_of_le (by omega)]
    simp

theorem reallocIf_n (env : Env) (p : Prop) [Decidable p] (size : Nat) {s : Io} (hs : s.Sized) :
    ∃ s1, reallocIf env p size s = .ok () s1 ∧ s1.Sized ∧ s1.curr = s.curr ∧ s1.fpos = s.fpos ∧
      (p → s1.n = size) ∧ (¬ p → s1 = s) := by
  by_cases hp : p
  · obtain ⟨s1, h1, h2, h3, h4, h5, _⟩ := realloc_sized env size s
    exact ⟨s1, by simp [reallocIf, hp, h1], h2, h4, h5, fun _ => h3, fun h => absurd hp h⟩
  · exact ⟨s, by simp [reallocIf, hp], hs, rfl, rfl, fun h => absurd h hp, fun _ => rfl⟩

theorem wr_inv {s s' : Io} {p : Nat} {b : Byte} {u : Unit} (h : wr p b s = .ok u s') :
    p < s.mem.length ∧ s' = { s with mem := s.mem.set p b } := by
  unfold wr at h
  split at h
  · cases h; exact ⟨by assumption, rfl⟩
  · cases h

theorem chunkIn_ok {env : Env} {used : Nat} {chunk : Bytes} {s s' : Io} {b : Byte} (hc : chunk ≠ []) (hn : NUL ∉ chunk)
    (hu : strlen s.mem = some used) (hs : s.Sized) (h : chunkIn env used chunk s = .ok b s') :
    chunk.getLast? = some b ∧ strlen s'.mem = some (used + chunk.length) ∧ s'.Sized ∧ s'.curr = s.curr ∧ s'.fpos = s.fpos ∧
      s'.n ≤ max s.n (2 * (used + chunk.length)) ∧ s.n ≤ s'.n := by
  obtain ⟨hu1, hu2, hu3⟩ := strlen_eq hu
  have hpos := List.length_pos_iff.mpr hc
  unfold chunkIn at h
  simp only [M.get_bind] at h
  have hre : ∃ s1, reallocIf env (s.n ≤ chunk.length + used) (s.n * 2) s = .ok () s1 ∧ s1.Sized ∧ s1.curr = s.curr ∧ s1.fpos = s.fpos ∧
      s1.mem.take used = s.mem.take used ∧ s1.n ≤ max s.n (2 * (used + chunk.length)) ∧ s.n ≤ s1.n := by
    by_cases hp : s.n ≤ chunk.length + used
    · obtain ⟨s1, h1, h2, h3, h4, h5, h6⟩ := realloc_sized env (s.n * 2) s
      refine ⟨s1, by simp [reallocIf, hp, h1], h2, h4, h5, ?_, by omega, by omega⟩
      have := congrArg (List.take used) h6
      unfold Sized at hs
      rw [List.take_take, List.take_take] at this
      rwa [show min used (min (s.n * 2) s.mem.length) = used by omega, show min used (s.n * 2) = used by omega] at this
    · exact ⟨s, by simp [reallocIf, hp], hs, rfl, rfl, rfl, by omega, Nat.le_refl _⟩
  obtain ⟨s1, e1, e2, e3, e4, e5, e6, e7⟩ := hre
  rw [M.bind_of_ok e1] at h
  by_cases hfit : used + chunk.length ≤ s1.mem.length
  · have hcp : copyTo used chunk s1 = .ok () { s1 with mem := s1.mem.take used ++ chunk ++ s1.mem.drop (used + chunk.length) } := by
      simp [copyTo, hfit]
    rw [M.bind_of_ok hcp] at h
    have hlen : (s1.mem.take used).length = used := by
      rw [e5, List.length_take]; omega
    generalize hd : s1.mem.drop (used + chunk.length) = T at h
    generalize ha : s1.mem.take used = A at h hlen
    have hA : NUL ∉ A := by rw [← ha, e5]; exact hu2
    have hmem : s1.mem.length = used + chunk.length + T.length := by rw [← hd]; simp; omega
    cases hw : wr (used + chunk.length) NUL { s1 with mem := A ++ chunk ++ T } with
    | ok u s2 =>
      rw [M.bind_of_ok hw] at h
      obtain ⟨hw1, hw2⟩ := wr_inv hw
      subst hw2
      simp only [List.length_append] at hw1
      cases T with
      | nil => simp at hw1; omega
      | cons t T =>
        have hset : (A ++ chunk ++ t :: T).set (used + chunk.length) NUL = (A ++ chunk) ++ NUL :: T := by
          have : used + chunk.length = (A ++ chunk).length := by simp [hlen]
          rw [this]; exact set_append_right
        simp only [hset] at h
        unfold rd at h
        have hlast : ((A ++ chunk) ++ NUL :: T)[used + chunk.length - 1]? = chunk.getLast? := by
          rw [List.append_assoc, List.getElem?_append_right (by omega), hlen, List.getElem?_append_left (by omega),
            List.getLast?_eq_getElem?]
          congr 1; omega
        simp only [hlast] at h
        cases hg : chunk.getLast? with
        | none => rw [hg] at h; cases h
        | some z =>
          rw [hg] at h
          cases h
          refine ⟨rfl, ?_, ?_, e3, e4, e6, e7⟩
          · show strlen ((A ++ chunk) ++ NUL :: T) = _
            rw [strlen_of (by simp [hA, hn])]
            simp [hlen]
          · unfold Sized at e2 ⊢
            simp only [List.length_append, List.length_cons] at hmem ⊢
            omega
    | exc e s2 => unfold wr at hw; split at hw <;> cases hw
    | ub => simp only [M.bind_apply, hw] at h; cases h
    | nofuel => simp only [M.bind_apply, hw] at h; cases h
  · have hcp : copyTo used chunk s1 = .ub := by simp [copyTo, hfit]
    simp only [M.bind_apply, hcp] at h; cases h

/-- one round -/
theorem fgetsLoop_round {env : Env} {d : Bytes} {f used : Nat} {s : Io} (hd : d.drop s.fpos ≠ [])
    (hn : NUL ∉ upToLF (d.drop s.fpos)) (hu : strlen s.mem = some used) :
    fgetsLoop env d (f + 1) used s =
      (chunkIn env used ((upToLF (d.drop s.fpos)).take 127) >>= fun b =>
        if b = LF then pure (some (used + ((upToLF (d.drop s.fpos)).take 127).length))
        else fgetsLoop env d f (used + ((upToLF (d.drop s.fpos)).take 127).length))
      { s with fpos := s.fpos + ((upToLF (d.drop s.fpos)).take 127).length } := by
  conv => lhs; unfold fgetsLoop
  rw [M.bind_of_ok (fgets_spec hd)]
  have hc : NUL ∉ (upToLF (d.drop s.fpos)).take 127 := fun h => hn (List.mem_of_mem_take h)
  have hc0 : (upToLF (d.drop s.fpos)).take 127 ≠ [] := by
    have := upToLF_ne hd
    cases hx : upToLF (d.drop s.fpos) with
    | nil => exact absurd hx this
    | cons => simp
  generalize (upToLF (d.drop s.fpos)).take 127 = chunk at *
  have hpos := List.length_pos_iff.mpr hc0
  have hsl : strlenLine { s with fpos := s.fpos + chunk.length } = .ok used { s with fpos := s.fpos + chunk.length } := by
    unfold strlenLine
    simp only [hu]
  dsimp only
  rw [M.bind_of_ok hsl, show chunk ++ [NUL] = chunk ++ NUL :: [] from rfl, strlen_line hc]
  simp only [M.get_bind, List.take_left' (rfl : chunk.length = chunk.length), chunkIn, M.bind_assoc_apply]
  simp only [M.bind_apply]
  cases reallocIf env (s.n ≤ chunk.length + used) (s.n * 2) { s with fpos := s.fpos + chunk.length } with
  | ok u s1 =>
    dsimp only
    cases copyTo used chunk s1 with
    | ok u s2 =>
      dsimp only
      cases wr (used + chunk.length) NUL s2 with
      | ok u s3 => dsimp only; rw [if_neg (by omega)]; rfl
      | _ => rfl
    | _ => rfl
  | _ => rfl

/-- how much the portable reader allocates -/
theorem fgetsLoop_n {env : Env} {d : Bytes} (hd : NUL ∉ d) : ∀ (f : Nat) {used : Nat} {s s' : Io} {r : Option Nat},
    strlen s.mem = some used → s.Sized → fgetsLoop env d f used s = .ok r s' →
    (r = none → s' = s) ∧ (∀ k, r = some k → used ≤ k ∧ s'.n ≤ max s.n (2 * k)) ∧ s'.Sized := by
  intro f
  induction f with
  | zero => intro used s s' r _ _ h; cases h
  | succ f ih =>
    intro used s s' r hu hs h
    by_cases he : d.drop s.fpos = []
    · unfold fgetsLoop at h
      rw [M.bind_of_ok (fgets_eof he)] at h
      cases h
      refine ⟨fun _ => rfl, fun k hk => ?_, hs⟩
      by_cases h0 : used = 0
      · rw [if_neg (by simpa using h0)] at hk; cases hk
      · rw [if_pos h0] at hk; cases hk; exact ⟨Nat.le_refl _, by omega⟩
    · have htn : NUL ∉ upToLF (d.drop s.fpos) := fun h' => hd (List.mem_of_mem_drop (mem_upToLF h'))
      rw [fgetsLoop_round he htn hu] at h
      have hc : NUL ∉ (upToLF (d.drop s.fpos)).take 127 := fun h => htn (List.mem_of_mem_take h)
      have hc0 : (upToLF (d.drop s.fpos)).take 127 ≠ [] := by
        have := upToLF_ne he
        cases hx : upToLF (d.drop s.fpos) with
        | nil => exact absurd hx this
        | cons => simp
      generalize (upToLF (d.drop s.fpos)).take 127 = chunk at *
      cases hb : chunkIn env used chunk { s with fpos := s.fpos + chunk.length } with
      | ok b s1 =>
        rw [M.bind_of_ok hb] at h
        obtain ⟨k1, k2, k3, k4, k5, k6, k7⟩ := chunkIn_ok hc0 hc (s := { s with fpos := s.fpos + chunk.length }) hu hs hb
        simp only at k6 k7
        by_cases hl : b = LF
        · rw [if_pos hl] at h
          cases h
          refine ⟨by simp, fun k hk => ?_, k3⟩
          cases hk
          exact ⟨by omega, k6⟩
        · rw [if_neg hl] at h
          obtain ⟨g1, g2, g3⟩ := ih k2 k3 h
          have hpos := List.length_pos_iff.mpr hc0
          refine ⟨fun hr => ?_, fun k hk => ?_, g3⟩
          · subst hr
            exfalso
            have hr0 : ∀ (f u : Nat) (s s' : Io), 0 < u → strlen s.mem = some u → s.Sized → fgetsLoop env d f u s ≠ .ok none s' := by
              intro f
              induction f with
              | zero => intro u s s' _ _ _ h; cases h
              | succ f ihf =>
                intro u s s' h0 hu hs h
                by_cases he : d.drop s.fpos = []
                · unfold fgetsLoop at h
                  rw [M.bind_of_ok (fgets_eof he)] at h
                  simp only [ne_eq, Nat.ne_of_gt h0, not_false_eq_true, if_true] at h
                  cases h
                · have htn : NUL ∉ upToLF (d.drop s.fpos) := fun h' => hd (List.mem_of_mem_drop (mem_upToLF h'))
                  rw [fgetsLoop_round he htn hu] at h
                  have hc : NUL ∉ (upToLF (d.drop s.fpos)).take 127 := fun h => htn (List.mem_of_mem_take h)
                  have hc0 : (upToLF (d.drop s.fpos)).take 127 ≠ [] := by
                    have := upToLF_ne he
                    cases hx : upToLF (d.drop s.fpos) with
                    | nil => exact absurd hx this
                    | cons => simp
                  generalize (upToLF (d.drop s.fpos)).take 127 = chunk at *
                  cases hb : chunkIn env u chunk { s with fpos := s.fpos + chunk.length } with
                  | ok b s1 =>
                    rw [M.bind_of_ok hb] at h
                    obtain ⟨_, k2, k3, _⟩ := chunkIn_ok hc0 hc (s := { s with fpos := s.fpos + chunk.length }) hu hs hb
                    by_cases hl : b = LF
                    · rw [if_pos hl] at h; cases h
                    · rw [if_neg hl] at h; exact ihf _ _ _ (by omega) k2 k3 h
                  | exc e s1 => rw [M.bind_of_exc hb] at h; cases h
                  | ub => simp only [M.bind_apply, hb] at h; cases h
                  | nofuel => simp only [M.bind_apply, hb] at h; cases h
            exact hr0 _ _ _ _ (by omega) k2 k3 h
          · obtain ⟨a1, a2⟩ := g2 k hk
            exact ⟨by omega, by omega⟩
      | exc e s1 => rw [M.bind_of_exc hb] at h; cases h
      | ub => simp only [M.bind_apply, hb] at h; cases h
      | nofuel => simp only [M.bind_apply, hb] at h; cases h

/-! ## A longer input -/

theorem upToLF_grow {t e : Bytes} (h : LF ∈ t) : upToLF (t ++ e) = upToLF t ∧ LF ∈ upToLF t := by
  induction t with
  | nil => simp at h
  | cons b t ih =>
    by_cases hb : b = LF
    · subst hb; simp [upToLF]
    · obtain ⟨i1, i2⟩ := ih (by
        rcases List.mem_cons.mp h with h | h
        · exact absurd h.symm hb
        · exact h)
      have e1 : ∀ r, upToLF (b :: r) = b :: upToLF r := fun r => by simp [upToLF, hb]
      rw [List.cons_append, e1, e1, i1]
      exact ⟨rfl, List.mem_cons_of_mem _ i2⟩

theorem drop_grow {d e : Bytes} {k : Nat} (hk : d.drop k ≠ []) : (d ++ e).drop k = d.drop k ++ e := by
  have hlt : k < d.length := by
    apply Nat.lt_of_not_le
    intro hle
    exact hk (List.drop_eq_nil_of_le hle)
  rw [List.drop_append, Nat.sub_eq_zero_of_le (by omega)]; rfl

theorem take_chunk (t : Bytes) (k : Nat) : t.take ((upToLF t).take k).length = (upToLF t).take k := by
  induction t generalizing k with
  | nil => simp [upToLF]
  | cons b t ih =>
    cases k with
    | zero => simp
    | succ k =>
      by_cases hb : b = LF
      · subst hb; simp [upToLF]
      · have e1 : upToLF (b :: t) = b :: upToLF t := by simp [upToLF, hb]
        rw [e1, List.take_succ_cons, List.length_cons, List.take_succ_cons, ih]

theorem fgetsLoop_grow {env : Env} {d e : Bytes} (hd : NUL ∉ d) :
    ∀ (f f' : Nat) {used : Nat} {s s' : Io} {r : Option Nat}, f ≤ f' → LF ∈ d.drop s.fpos →
    strlen s.mem = some used → s.Sized → fgetsLoop env d f used s = .ok r s' → fgetsLoop env (d ++ e) f' used s = .ok r s' := by
  intro f
  induction f with
  | zero => intro f' used s s' r _ _ _ _ h; cases h
  | succ f ih =>
    intro f' used s s' r hf hlf hu hs h
    have he : d.drop s.fpos ≠ [] := List.ne_nil_of_mem hlf
    obtain ⟨f', rfl⟩ : ∃ g, f' = g + 1 := ⟨f' - 1, by omega⟩
    obtain ⟨g1, g2⟩ := upToLF_grow (e := e) hlf
    have he' : (d ++ e).drop s.fpos ≠ [] := by rw [drop_grow he]; simp [he]
    have htn : NUL ∉ upToLF (d.drop s.fpos) := fun h' => hd (List.mem_of_mem_drop (mem_upToLF h'))
    have hup : upToLF ((d ++ e).drop s.fpos) = upToLF (d.drop s.fpos) := by rw [drop_grow he, g1]
    rw [fgetsLoop_round he htn hu] at h
    rw [fgetsLoop_round he' (by rw [hup]; exact htn) hu, hup]
    have hc : NUL ∉ (upToLF (d.drop s.fpos)).take 127 := fun h => htn (List.mem_of_mem_take h)
    have hc0 : (upToLF (d.drop s.fpos)).take 127 ≠ [] := by
      have := upToLF_ne he
      cases hx : upToLF (d.drop s.fpos) with
      | nil => exact absurd hx this
      | cons => simp
    have hnolf := @chunk_noLF (d.drop s.fpos) 127
    have hlen : ∀ z, ((upToLF (d.drop s.fpos)).take 127).getLast? = some z → z ≠ LF →
        LF ∈ d.drop (s.fpos + ((upToLF (d.drop s.fpos)).take 127).length) := by
      intro z hz hzl
      have hno := hnolf (by rw [hz]; simpa using hzl)
      rw [← List.drop_drop]
      have hpre := take_chunk (d.drop s.fpos) 127
      rw [← List.take_append_drop ((upToLF (d.drop s.fpos)).take 127).length (d.drop s.fpos), hpre] at hlf
      rcases List.mem_append.mp hlf with h | h
      · exact absurd h hno
      · exact h
    generalize (upToLF (d.drop s.fpos)).take 127 = chunk at *
    cases hb : chunkIn env used chunk { s with fpos := s.fpos + chunk.length } with
    | ok b s1 =>
      rw [M.bind_of_ok hb] at h ⊢
      obtain ⟨k1, k2, k3, k4, k5, k6, k7⟩ := chunkIn_ok hc0 hc (s := { s with fpos := s.fpos + chunk.length }) hu hs hb
      by_cases hl : b = LF
      · rw [if_pos hl] at h ⊢
        exact h
      · rw [if_neg hl] at h ⊢
        refine ih f' (by omega) ?_ k2 k3 h
        rw [k5]
        exact hlen b k1 hl
    | exc e s1 => rw [M.bind_of_exc hb] at h; cases h
    | ub => simp only [M.bind_apply, hb] at h; cases h
    | nofuel => simp only [M.bind_apply, hb] at h; cases h

/-! ## The data buffer -/

/-- one round of the loop of `get_line_buffer` -/
theorem bufLoop_round {env : Env} {p : Bytes} {n f used : Nat} {s : Io} (hs : s.Sized) (hc : s.curr < n) :
    (∃ c s2, p[s.curr]? = some c ∧ s2.Sized ∧ s2.curr = s.curr + 1 ∧ s2.fpos = s.fpos ∧ s2.n ≤ max s.n (2 * (used + 1)) ∧
      (∀ (q : Bytes) (m g : Nat), q[s.curr]? = some c → s.curr < m → bufLoop env (some q) m (g + 1) used s =
        if c = LF then (wr (used + 1) NUL >>= fun _ => pure (used + 1)) s2 else bufLoop env (some q) m g (used + 1) s2)) ∨
    bufLoop env (some p) n (f + 1) used s = .ub := by
  obtain ⟨s1, e1, e2, e3, e4, e5, e6⟩ := reallocIf_n env (used + 1 ≥ s.n) (s.n * 2) hs
  have hn1 : s1.n ≤ max s.n (2 * (used + 1)) := by
    by_cases h : used + 1 ≥ s.n
    · rw [e5 h]; omega
    · rw [e6 h]; omega
  cases hp : p[s.curr]? with
  | none =>
    refine .inr ?_
    unfold bufLoop
    simp only [M.get_bind, hc, if_true]
    rw [M.bind_of_ok e1]
    simp only [M.bind_apply, rdCsv, hp]
  | some c =>
    by_cases hu : used < s1.mem.length
    · refine .inl ⟨c, { s1 with curr := s1.curr + 1, mem := s1.mem.set used c }, rfl, ?_, by simp [e3], e4, hn1, ?_⟩
      · unfold Sized at *; simpa using e2
      · intro q m g hq hm
        conv => lhs; unfold bufLoop
        simp only [M.get_bind, hm, if_true]
        rw [M.bind_of_ok e1]
        have hr : rdCsv (some q) s.curr s1 = .ok c s1 := by simp only [rdCsv, hq]
        rw [M.bind_of_ok hr]
        simp only [M.modify_bind]
        have hw : wr used c { s1 with curr := s1.curr + 1 } = .ok () { s1 with curr := s1.curr + 1, mem := s1.mem.set used c } := wr_ok hu
        rw [M.bind_of_ok hw]
        by_cases hl : c = LF
        · rw [if_pos hl, if_pos hl]
        · rw [if_neg hl, if_neg hl]
    · refine .inr ?_
      unfold bufLoop
      simp only [M.get_bind, hc, if_true]
      rw [M.bind_of_ok e1]
      have hr : rdCsv (some p) s.curr s1 = .ok c s1 := by simp only [rdCsv, hp]
      rw [M.bind_of_ok hr]
      simp only [M.bind_apply, M.modify_apply, wr, hu, if_false]

theorem wr_n {s s' : Io} {p : Nat} {b : Byte} {u : Unit} (hs : s.Sized) (h : wr p b s = .ok u s') :
    s'.Sized ∧ s'.n = s.n := by
  obtain ⟨_, rfl⟩ := wr_inv h
  exact ⟨by unfold Sized at *; simpa using hs, rfl⟩

theorem bind_ok_inv {σ α β : Type} {m : M σ α} {f : α → M σ β} {s t : σ} {b : β} (h : (m >>= f) s = .ok b t) :
    ∃ a s1, m s = .ok a s1 ∧ f a s1 = .ok b t := by
  simp only [M.bind_apply] at h
  cases hm : m s with
  | ok a s1 => rw [hm] at h; exact ⟨a, s1, rfl, h⟩
  | exc e s1 => rw [hm] at h; cases h
  | ub => rw [hm] at h; cases h
  | nofuel => rw [hm] at h; cases h

theorem bufLoop_n {env : Env} {p : Bytes} {n : Nat} : ∀ (f : Nat) {used : Nat} {s s' : Io} {r : Nat}, s.Sized →
    bufLoop env (some p) n f used s = .ok r s' → used ≤ r ∧ s'.n ≤ max s.n (2 * r) ∧ s'.Sized := by
  intro f
  induction f with
  | zero => intro used s s' r _ h; cases h
  | succ f ih =>
    intro used s s' r hs h
    by_cases hc : s.curr < n
    · rcases bufLoop_round (env := env) (p := p) (f := f) (used := used) hs hc with ⟨c, s2, k1, k2, k3, k4, k5, k6⟩ | hub
      · rw [k6 p n f k1 hc] at h
        by_cases hl : c = LF
        · rw [if_pos hl] at h
          obtain ⟨_, s3, h1, h2⟩ := bind_ok_inv h
          cases h2
          obtain ⟨a1, a2⟩ := wr_n k2 h1
          exact ⟨by omega, by rw [a2]; exact k5, a1⟩
        · rw [if_neg hl] at h
          obtain ⟨a1, a2, a3⟩ := ih k2 h
          exact ⟨by omega, by omega, a3⟩
      · rw [hub] at h; cases h
    · unfold bufLoop at h
      simp only [M.get_bind, hc, if_false] at h
      obtain ⟨_, s3, h1, h2⟩ := bind_ok_inv h
      cases h2
      obtain ⟨a1, a2⟩ := wr_n hs h1
      exact ⟨Nat.le_refl _, by rw [a2]; omega, a1⟩

theorem bufLoop_grow {env : Env} {p e : Bytes} : ∀ (f f' : Nat) {used : Nat} {s s' : Io} {r : Nat},
    f ≤ f' → LF ∈ p.drop s.curr → s.Sized → bufLoop env (some p) p.length f used s = .ok r s' →
    bufLoop env (some (p ++ e)) (p ++ e).length f' used s = .ok r s' := by
  intro f
  induction f with
  | zero => intro f' used s s' r _ _ _ h; cases h
  | succ f ih =>
    intro f' used s s' r hf hlf hs h
    have hc : s.curr < p.length := by
      apply Nat.lt_of_not_le
      intro hle
      rw [List.drop_eq_nil_of_le hle] at hlf; simp at hlf
    obtain ⟨f', rfl⟩ : ∃ g, f' = g + 1 := ⟨f' - 1, by omega⟩
    rcases bufLoop_round (env := env) (p := p) (f := f) (used := used) hs hc with ⟨c, s2, k1, k2, k3, k4, k5, k6⟩ | hub
    · rw [k6 p p.length f k1 hc] at h
      rw [k6 (p ++ e) (p ++ e).length f' (by rw [List.getElem?_append_left hc]; exact k1) (by simp; omega)]
      by_cases hl : c = LF
      · rw [if_pos hl] at h ⊢; exact h
      · rw [if_neg hl] at h ⊢
        refine ih f' (by omega) ?_ k2 h
        rw [k3]
        rw [List.drop_eq_getElem_cons hc] at hlf
        rcases List.mem_cons.mp hlf with h | h
        · rw [List.getElem?_eq_getElem hc] at k1
          exact absurd (h.trans (Option.some.inj k1)).symm hl
        · exact h
    · rw [hub] at h; cases h

/-! ## All readers -/

theorem portable_start {env : Env} {s : Io} (hs : s.Sized) : ∃ s1, s1.Sized ∧ s1.curr = s.curr ∧ s1.fpos = s.fpos ∧
    s1.n ≤ max s.n 128 ∧ strlen s1.mem = some 0 ∧
    ∀ d, getlinePortable env d s = fgetsLoop env d (d.length + 1) 0 s1 := by
  obtain ⟨s1, e1, e2, e3, e4, e5, e6⟩ := reallocIf_n env (s.mem = [] ∨ s.n < initialSize) initialSize hs
  have hn : 128 ≤ s1.n ∧ s1.n ≤ max s.n 128 := by
    by_cases h : s.mem = [] ∨ s.n < initialSize
    · rw [e5 h]; exact ⟨Nat.le_refl _, by unfold initialSize; omega⟩
    · rw [e6 h]; simp only [not_or, Nat.not_lt] at h
      have := h.2
      unfold initialSize at this
      omega
  have hlen : 0 < s1.mem.length := by unfold Sized at e2; omega
  refine ⟨{ s1 with mem := s1.mem.set 0 NUL }, ?_, e3, e4, hn.2, ?_, fun d => ?_⟩
  · unfold Sized at *; simpa using e2
  · cases hm : s1.mem with
    | nil => rw [hm] at hlen; simp at hlen
    | cons b m => simp [strlen]
  · unfold getlinePortable
    simp only [M.get_bind]
    rw [M.bind_of_ok e1, M.bind_of_ok (wr_ok hlen)]

theorem buffer_start {env : Env} {s : Io} (hs : s.Sized) : ∃ s1, s1.Sized ∧ s1.curr = s.curr ∧ s1.fpos = s.fpos ∧
    s1.n ≤ max s.n 128 ∧
    ∀ p n, s.curr < n → getLineBuffer env p n s = (bufLoop env p n (n + 1) 0 >>= fun r => pure (some r)) s1 := by
  obtain ⟨s1, e1, e2, e3, e4, e5, e6⟩ := reallocIf_n env (s.mem = [] ∨ s.n < initialSize) initialSize hs
  refine ⟨s1, e2, e3, e4, ?_, fun p n hn => ?_⟩
  · by_cases h : s.mem = [] ∨ s.n < initialSize
    · rw [e5 h]; unfold initialSize; omega
    · rw [e6 h]; omega
  · unfold getLineBuffer
    simp only [M.get_bind]
    rw [if_neg (by omega), M.bind_of_ok e1]

/-- a line that is there is read in the same way when more follows -/
theorem getLine_grow {env : Env} {src src' : Src} (hg : src.Grown src') (hf : src.Fine)
    {s s' : Io} {r : Option Nat} (hs : s.Sized) (hu : LF ∈ src.unread s.curr s.fpos) (h : getLine env src s = .ok r s') :
    getLine env src' s = .ok r s' := by
  cases hg with
  | @file u p e =>
    have hlf2 : LF ∈ p.drop s.fpos := hu
    have hu' : p.drop s.fpos ≠ [] := List.ne_nil_of_mem hlf2
    rw [getLine_file] at h ⊢
    obtain ⟨r1, s1, h1, h2⟩ := bind_ok_inv h
    have h1' : getLineFile u env (p ++ e) s = .ok r1 s1 := by
      cases u with
      | true =>
        have hup : upToLF ((p ++ e).drop s.fpos) = upToLF (p.drop s.fpos) := by
          rw [drop_grow hu', (upToLF_grow hlf2).1]
        simp only [getLineFile, if_true] at h1 ⊢
        unfold getlinePosix at h1 ⊢
        simp only [M.get_bind] at h1 ⊢
        rw [hup]; exact h1
      | false =>
        simp only [getLineFile, Bool.false_eq_true, if_false] at h1 ⊢
        obtain ⟨s2, k1, k2, k3, k4, k5, k6⟩ := portable_start (env := env) hs
        rw [k6] at h1 ⊢
        exact fgetsLoop_grow (hf rfl) _ _ (by simp) (by rw [k3]; exact hlf2) k5 k1 h1
    rw [M.bind_of_ok h1']; exact h2
  | @buf p e =>
    have hlf2 : LF ∈ p.drop s.curr := hu
    have hu' : p.drop s.curr ≠ [] := List.ne_nil_of_mem hlf2
    have hlt : s.curr < p.length := by
      apply Nat.lt_of_not_le
      intro hle
      exact hu' (List.drop_eq_nil_of_le hle)
    obtain ⟨s1, k1, k2, k3, k4, k5⟩ := buffer_start (env := env) hs
    simp only [getLine] at h ⊢
    rw [k5 _ _ hlt] at h
    rw [k5 _ _ (by simp; omega)]
    obtain ⟨r1, s2, h1, h2⟩ := bind_ok_inv h
    cases h2
    rw [M.bind_of_ok (bufLoop_grow _ _ (by simp) (by rw [k2]; exact hlf2) k1 h1)]
    rfl

/-- how much memory reading a line takes; `G`: how much more than needed `getline` allocates -/
theorem getLine_n {env : Env} {G : Nat} (hG : ∀ t, env.grow t ≤ G) {src : Src} (hf : src.Fine) {s s' : Io} {r : Option Nat} (hs : s.Sized)
    (h : getLine env src s = .ok r s') : s'.Sized ∧ s'.n ≤ max s.n (max 128 (2 * r.getD 0 + 1 + G)) := by
  cases src with
  | file u p =>
    rw [getLine_file] at h
    obtain ⟨r1, s1, h1, h2⟩ := bind_ok_inv h
    cases h2
    have key : s1.Sized ∧ s1.n ≤ max s.n (max 128 (2 * r.getD 0 + 1 + G)) := by
      cases u with
      | true =>
        simp only [getLineFile, if_true] at h1
        unfold getlinePosix at h1
        simp only [M.get_bind] at h1
        by_cases hl : upToLF (p.drop s.fpos) = []
        · rw [if_pos hl] at h1
          obtain ⟨s2, e1, e2, e3, e4, e5, e6⟩ := reallocIf_n env (s.mem = []) (env.grow s.tick) hs
          rw [M.bind_of_ok e1] at h1
          cases h1
          refine ⟨e2, ?_⟩
          by_cases h0 : s.mem = []
          · rw [e5 h0]; have := hG s.tick; omega
          · rw [e6 h0]; omega
        · rw [if_neg hl] at h1
          generalize upToLF (p.drop s.fpos) = line at h1 hl
          obtain ⟨s2, e1, e2, e3, e4, e5, e6⟩ := reallocIf_n env (s.mem = [] ∨ s.n < line.length + 1)
            (line.length + 1 + env.grow s.tick) hs
          rw [M.bind_of_ok e1] at h1
          cases h1
          have hn : line.length + 1 ≤ s2.n := by
            by_cases h0 : s.mem = [] ∨ s.n < line.length + 1
            · rw [e5 h0]; omega
            · rw [e6 h0]; simp only [not_or] at h0; omega
          refine ⟨?_, ?_⟩
          · unfold Sized at *; simp; omega
          · by_cases h0 : s.mem = [] ∨ s.n < line.length + 1
            · simp only [e5 h0, Option.getD_some]; have := hG s.tick; omega
            · simp only [e6 h0]; omega
      | false =>
        simp only [getLineFile, Bool.false_eq_true, if_false] at h1
        obtain ⟨s2, k1, k2, k3, k4, k5, k6⟩ := portable_start (env := env) hs
        rw [k6] at h1
        obtain ⟨g1, g2, g3⟩ := fgetsLoop_n (hf rfl) _ k5 k1 h1
        refine ⟨g3, ?_⟩
        cases r with
        | none => rw [g1 rfl]; omega
        | some k => have := (g2 k rfl).2; simp only [Option.getD_some]; omega
    exact key
  | buf p n =>
    simp only [getLine] at h
    by_cases hlt : s.curr < n
    · cases p with
      | none => cases hf; simp at hlt
      | some p =>
        obtain ⟨s1, k1, k2, k3, k4, k5⟩ := buffer_start (env := env) hs
        rw [k5 _ _ hlt] at h
        obtain ⟨r1, s2, h1, h2⟩ := bind_ok_inv h
        cases h2
        obtain ⟨a1, a2, a3⟩ := bufLoop_n _ k1 h1
        refine ⟨a3, ?_⟩
        simp only [Option.getD_some]; omega
    · unfold getLineBuffer at h
      simp only [M.get_bind] at h
      rw [if_pos (by omega)] at h
      cases h
      exact ⟨hs, by omega⟩

end Ssp

import Verif.Model.LineCost
import Verif.Proofs.Count
import Verif.Proofs.LineMore
/-! # The counted line readers -/
namespace Ssp
namespace Io

/-! ## Counting changes nothing -/

theorem erase_bufLoop (env : Env) (p : Option Bytes) (size : Nat) : ∀ f used, (bufLoopK env p size f used).erase = bufLoop env p size f used
  | 0, _ => rfl
  | f + 1, used => by
    unfold bufLoopK bufLoop reallocIfK rdCsvK wrK
    simp only [erase_ite, erase_bind, erase_free, erase_of, erase_pure, erase_bufLoop env p size f]

theorem erase_getLineBuffer (env : Env) (p : Option Bytes) (size : Nat) : (getLineBufferK env p size).erase = getLineBuffer env p size := by
  unfold getLineBufferK getLineBuffer reallocIfK
  simp only [erase_ite, erase_bind, erase_free, erase_of, erase_pure, erase_bufLoop]

theorem erase_fgets (d : Bytes) : (fgetsK d).erase = fgets d := by
  funext s
  unfold K.erase fgetsK
  cases h : fgets d s with
  | ok a t => cases a <;> rfl
  | _ => rfl

theorem erase_fgetsLoop (env : Env) (d : Bytes) : ∀ f used, (fgetsLoopK env d f used).erase = fgetsLoop env d f used
  | 0, _ => rfl
  | f + 1, used => by
    unfold fgetsLoopK fgetsLoop reallocIfK wrK strlenLineK copyToK rdK
    rw [erase_bind, erase_fgets]
    congr 1
    funext o
    cases o with
    | none => rfl
    | some buff =>
      dsimp only
      rw [erase_bind, erase_of]
      congr 1
      funext u
      cases strlen buff with
      | none => rfl
      | some k =>
        dsimp only
        simp only [erase_ite, erase_bind, erase_free, erase_of, erase_pure, erase_fgetsLoop env d f]

theorem erase_getlinePortable (env : Env) (d : Bytes) : (getlinePortableK env d).erase = getlinePortable env d := by
  unfold getlinePortableK getlinePortable reallocIfK wrK
  simp only [erase_bind, erase_free, erase_of, erase_fgetsLoop]

end Io

/-! ## Counted operations that end normally -/

theorem K.bind_inv {σ α β : Type} {k : K σ α} {f : α → K σ β} {s t : σ} {b : β} {n : Nat} (h : (k >>= f) s = (.ok b t, n)) :
    ∃ a s1 n1 n2, k s = (.ok a s1, n1) ∧ f a s1 = (.ok b t, n2) ∧ n = n1 + n2 := by
  change K.bind k f s = _ at h
  unfold K.bind at h
  cases hk : k s with
  | mk r n1 =>
    rw [hk] at h
    cases r with
    | ok a s1 =>
      simp only [Prod.mk.injEq] at h
      exact ⟨a, s1, n1, (f a s1).2, rfl, by rw [← h.1], h.2.symm⟩
    | _ => simp only [Prod.mk.injEq] at h; cases h.1

theorem K.of_inv {σ α : Type} {m : M σ α} {c : σ → Nat} {s t : σ} {a : α} {n : Nat} (h : K.of m c s = (.ok a t, n)) :
    m s = .ok a t ∧ n = c s := by
  unfold K.of at h
  simp only [Prod.mk.injEq] at h
  exact ⟨h.1, h.2.symm⟩

theorem K.pure_inv {σ α : Type} {a b : α} {s t : σ} {n : Nat} (h : (pure a : K σ α) s = (.ok b t, n)) : a = b ∧ s = t ∧ n = 0 := by
  change (Res.ok a s, 0) = _ at h
  simp only [Prod.mk.injEq, Res.ok.injEq] at h
  exact ⟨h.1.1, h.1.2, h.2.symm⟩

theorem K.get_bind {σ α : Type} (f : σ → K σ α) (s : σ) : (K.free M.get >>= f) s = f s s := by
  show K.bind (K.free M.get) f s = _
  unfold K.bind
  simp only [K.free, K.of, M.get_apply, Nat.zero_add]

namespace Io

/-- making room: the bytes moved are at most the bytes gained -/
theorem reallocIfK_cost {env : Env} {p : Prop} [Decidable p] {s s1 : Io} {u : Unit} {n : Nat} (hs : s.Sized)
    (h : reallocIfK env p (s.n * 2) s = (.ok u s1, n)) :
    n + s.n = s1.n ∧ s1.Sized ∧ s1.curr = s.curr ∧ s1.fpos = s.fpos := by
  obtain ⟨h1, h2⟩ := K.of_inv h
  obtain ⟨s2, e1, e2, e3, e4, e5, e6⟩ := reallocIf_n env p (s.n * 2) hs
  rw [e1] at h1
  cases h1
  refine ⟨?_, e2, e3, e4⟩
  unfold Sized at hs
  by_cases hp : p
  · rw [e5 hp, h2, if_pos hp]; omega
  · rw [e6 hp, h2, if_neg hp]; omega

/-- the steps of the loop of `get_line_buffer`: two for every byte, one for the terminator, and the growth of the block -/
theorem bufLoopK_cost {env : Env} {p : Option Bytes} {size : Nat} : ∀ (f used : Nat) {s s' : Io} {r n : Nat}, s.Sized →
    bufLoopK env p size f used s = (.ok r s', n) → used ≤ r ∧ n + s.n = 2 * (r - used) + 1 + s'.n ∧ s.n ≤ s'.n ∧ s'.Sized := by
  intro f
  induction f with
  | zero => intro used s s' r n _ h; cases h
  | succ f ih =>
    intro used s s' r n hs h
    unfold bufLoopK at h
    rw [K.get_bind] at h
    by_cases hc : s.curr < size
    · rw [if_pos hc] at h
      replace h := K.bind_inv h
      obtain ⟨_, s1, n1, n2, h1, h, q1⟩ := h
      obtain ⟨e1, e2, e3, e4⟩ := reallocIfK_cost hs h1
      replace h := K.bind_inv h
      obtain ⟨c, s2, n3, n4, h3, h, q2⟩ := h
      replace h3 := K.of_inv h3
      obtain ⟨h3, r1⟩ := h3
      have hs2 : s2 = s1 := by
        unfold rdCsv at h3
        cases p with
        | none => cases h3
        | some d =>
          dsimp only at h3
          cases hd : d[s.curr]? with
          | none => rw [hd] at h3; cases h3
          | some b => rw [hd] at h3; cases h3; rfl
      subst hs2
      replace h := K.bind_inv h
      obtain ⟨_, s3, n5, n6, h5, h, q3⟩ := h
      replace h5 := K.of_inv h5
      obtain ⟨h5, r2⟩ := h5
      cases h5
      replace h := K.bind_inv h
      obtain ⟨_, s4, n7, n8, h7, h, q4⟩ := h
      replace h7 := K.of_inv h7
      obtain ⟨h7, r3⟩ := h7
      obtain ⟨g1, g2⟩ := wr_n (s := { s2 with curr := s2.curr + 1 }) (by exact e2) h7
      dsimp only at g2
      by_cases hl : c = LF
      · rw [if_pos hl] at h
        replace h := K.bind_inv h
        obtain ⟨_, s5, n9, n10, h9, h, q5⟩ := h
        replace h9 := K.of_inv h9
        obtain ⟨h9, r4⟩ := h9
        obtain ⟨p1, p2, p3⟩ := K.pure_inv h
        subst p2
        obtain ⟨k1, k2⟩ := wr_n g1 h9
        exact ⟨by omega, by omega, by omega, k1⟩
      · rw [if_neg hl] at h
        obtain ⟨k1, k2, k4, k3⟩ := ih _ g1 h
        exact ⟨by omega, by omega, by omega, k3⟩
    · rw [if_neg hc] at h
      replace h := K.bind_inv h
      obtain ⟨_, s1, n1, n2, h1, h, q6⟩ := h
      replace h1 := K.of_inv h1
      obtain ⟨h1, r5⟩ := h1
      obtain ⟨p1, p2, p3⟩ := K.pure_inv h
      subst p2
      obtain ⟨k1, k2⟩ := wr_n hs h1
      exact ⟨by omega, by omega, by omega, k1⟩

theorem start_cost {env : Env} {s s1 : Io} {u : Unit} {n : Nat} (hs : s.Sized)
    (h : reallocIfK env (s.mem = [] ∨ s.n < initialSize) initialSize s = (.ok u s1, n)) :
    n < 128 ∧ n ≤ s.n ∧ n + s.n ≤ s1.n + 127 ∧ s.n ≤ s1.n ∧ (s.n = 0 ∨ 128 ≤ s.n → n = 0) ∧ 128 ≤ s1.n ∧ s1.n ≤ max s.n 128 ∧
      s1.Sized ∧ s1.curr = s.curr ∧ s1.fpos = s.fpos := by
  obtain ⟨h1, h2⟩ := K.of_inv h
  obtain ⟨s2, e1, e2, e3, e4, e5, e6⟩ := reallocIf_n env (s.mem = [] ∨ s.n < initialSize) initialSize hs
  rw [e1] at h1
  cases h1
  have hs0 : s.n = s.mem.length := hs
  by_cases hp : s.mem = [] ∨ s.n < initialSize
  · rw [if_pos hp] at h2
    have hlt : s.n < 128 := by
      rcases hp with h | h
      · rw [hs0, h]; simp
      · exact h
    have h5 := e5 hp
    unfold initialSize at h5
    refine ⟨by omega, by omega, by omega, by omega, ?_, by omega, by omega, e2, e3, e4⟩
    rintro (h | h) <;> omega
  · rw [if_neg hp] at h2
    have h6 := congrArg Io.n (e6 hp)
    simp only [not_or, Nat.not_lt] at hp
    have := hp.2
    unfold initialSize at this
    exact ⟨by omega, by omega, by omega, by omega, fun _ => h2, by omega, by omega, e2, e3, e4⟩

/-- the steps of `get_line_buffer` -/
theorem getLineBufferK_cost {env : Env} {p : Option Bytes} {size k n : Nat} {s s' : Io} (hs : s.Sized)
    (h : getLineBufferK env p size s = (.ok (some k) s', n)) :
    n + s.n ≤ 2 * k + 1 + s'.n + 127 ∧ (s.n = 0 ∨ 128 ≤ s.n → n + s.n ≤ 2 * k + 1 + s'.n) ∧ s'.Sized ∧ s.n ≤ s'.n ∧ 128 ≤ s'.n ∧
      s'.n ≤ max s.n (max 128 (2 * k)) ∧ 2 * k + 1 ≤ n := by
  unfold getLineBufferK at h
  rw [K.get_bind] at h
  by_cases hc : s.curr ≥ size
  · rw [if_pos hc] at h
    obtain ⟨h1, _⟩ := K.pure_inv h
    cases h1
  · rw [if_neg hc] at h
    replace h := K.bind_inv h
    obtain ⟨_, s1, n1, n2, h1, h, q7⟩ := h
    obtain ⟨e1, e2, e3, e4, e5, e6, e7, e8, e9, e10⟩ := start_cost hs h1
    replace h := K.bind_inv h
    obtain ⟨r, s2, n3, n4, h3, h, q8⟩ := h
    obtain ⟨h4, rfl, rfl⟩ := K.pure_inv h
    cases h4
    obtain ⟨k1, k2, hge, k3⟩ := bufLoopK_cost _ _ e8 h3
    have h5 : bufLoop env p size (size + 1) 0 s1 = .ok k s2 := by
      rw [← erase_bufLoop]; show (bufLoopK env p size (size + 1) 0 s1).1 = _; rw [h3]
    have hp : ∃ d, p = some d := by
      cases p with
      | some d => exact ⟨d, rfl⟩
      | none =>
        exfalso
        unfold bufLoop at h5
        simp only [M.get_bind] at h5
        rw [if_pos (by omega)] at h5
        obtain ⟨_, _, _, h6⟩ := bind_ok_inv h5
        obtain ⟨_, _, h7, _⟩ := bind_ok_inv h6
        cases h7
    obtain ⟨d, rfl⟩ := hp
    obtain ⟨_, a2, _⟩ := bufLoop_n _ e8 h5
    refine ⟨by omega, fun h => by have := e5 h; omega, k3, by omega, by omega, by omega, by omega⟩

/-! ## The portable reader -/

theorem fgetsK_spec {d : Bytes} {s : Io} (h : d.drop s.fpos ≠ []) :
    fgetsK d s = (.ok (some ((upToLF (d.drop s.fpos)).take 127 ++ [NUL]))
      { s with fpos := s.fpos + ((upToLF (d.drop s.fpos)).take 127).length }, ((upToLF (d.drop s.fpos)).take 127).length + 1) := by
  unfold fgetsK
  rw [fgets_spec h]
  simp

theorem fgetsK_eof {d : Bytes} {s : Io} (h : d.drop s.fpos = []) : fgetsK d s = (.ok none s, 1) := by
  unfold fgetsK
  rw [fgets_eof h]

/-- one round, counted -/
theorem fgetsLoopK_round {env : Env} {d : Bytes} {f used n : Nat} {s s' : Io} {r : Option Nat} (hs : s.Sized) (hd : d.drop s.fpos ≠ [])
    (hn : NUL ∉ upToLF (d.drop s.fpos)) (hu : strlen s.mem = some used) (h : fgetsLoopK env d (f + 1) used s = (.ok r s', n)) :
    ∃ b s1 n1 n2, chunkIn env used ((upToLF (d.drop s.fpos)).take 127)
        { s with fpos := s.fpos + ((upToLF (d.drop s.fpos)).take 127).length } = .ok b s1 ∧
      n1 + s.n = s1.n ∧ n = 3 * ((upToLF (d.drop s.fpos)).take 127).length + used + 5 + n1 + n2 ∧
      ((b = LF ∧ r = some (used + ((upToLF (d.drop s.fpos)).take 127).length) ∧ s' = s1 ∧ n2 = 0) ∨
       (b ≠ LF ∧ fgetsLoopK env d f (used + ((upToLF (d.drop s.fpos)).take 127).length) s1 = (.ok r s', n2))) := by
  unfold fgetsLoopK at h
  replace h := K.bind_inv h
  obtain ⟨o, s0, m0, m1, h0, h, q1⟩ := h
  rw [fgetsK_spec hd] at h0
  have hc : NUL ∉ (upToLF (d.drop s.fpos)).take 127 := fun h => hn (List.mem_of_mem_take h)
  have hc0 : (upToLF (d.drop s.fpos)).take 127 ≠ [] := by
    have := upToLF_ne hd
    cases hx : upToLF (d.drop s.fpos) with
    | nil => exact absurd hx this
    | cons => simp
  generalize (upToLF (d.drop s.fpos)).take 127 = chunk at *
  have hpos := List.length_pos_iff.mpr hc0
  simp only [Prod.mk.injEq, Res.ok.injEq] at h0
  obtain ⟨⟨rfl, rfl⟩, r0⟩ := h0
  dsimp only at h
  replace h := K.bind_inv h
  obtain ⟨u, s2, m2, m3, h2, h, q2⟩ := h
  obtain ⟨h2, r2⟩ := K.of_inv h2
  unfold strlenLine at h2
  simp only [hu] at h2
  cases h2
  simp only [hu, Option.getD_some] at r2
  rw [show chunk ++ [NUL] = chunk ++ NUL :: [] from rfl, strlen_line hc] at h
  dsimp only at h
  replace h := K.bind_inv h
  obtain ⟨t, s3, m4, m5, h3, h, q3⟩ := h
  obtain ⟨h3, r3⟩ := K.of_inv h3
  cases h3
  rw [List.take_left' (rfl : chunk.length = chunk.length)] at h
  replace h := K.bind_inv h
  obtain ⟨w, s4, m6, m7, h4, h, q4⟩ := h
  obtain ⟨e1, e2, e3, e4⟩ := reallocIfK_cost (s := { s with fpos := s.fpos + chunk.length }) hs h4
  obtain ⟨h4, _⟩ := K.of_inv h4
  replace h := K.bind_inv h
  obtain ⟨w, s5, m8, m9, h5, h, q5⟩ := h
  obtain ⟨h5, r5⟩ := K.of_inv h5
  replace h := K.bind_inv h
  obtain ⟨w, s6, m10, m11, h6, h, q6⟩ := h
  obtain ⟨h6, r6⟩ := K.of_inv h6
  rw [if_neg (by omega)] at h
  replace h := K.bind_inv h
  obtain ⟨b, s7, m12, m13, h7, h, q7⟩ := h
  obtain ⟨h7, r7⟩ := K.of_inv h7
  have hn5 : s5.n = s4.n := by
    unfold copyTo at h5
    by_cases hf : used + chunk.length ≤ s4.mem.length
    · rw [if_pos hf] at h5; cases h5; rfl
    · rw [if_neg hf] at h5; cases h5
  have hn6 : s6.n = s5.n := by obtain ⟨_, rfl⟩ := wr_inv h6; rfl
  have hs7 : s7 = s6 := by
    unfold rd at h7
    cases hg : s6.mem[used + chunk.length - 1]? with
    | none => rw [hg] at h7; cases h7
    | some x => rw [hg] at h7; cases h7; rfl
  refine ⟨b, s7, m6, m13, ?_, ?_, ?_, ?_⟩
  · unfold chunkIn
    simp only [M.get_bind]
    rw [M.bind_of_ok h4, M.bind_of_ok h5, M.bind_of_ok h6]
    exact h7
  · rw [hs7, hn6, hn5]; exact e1
  · omega
  · by_cases hl : b = LF
    · rw [if_pos hl] at h
      obtain ⟨p1, p2, p3⟩ := K.pure_inv h
      exact .inl ⟨hl, p1.symm, p2.symm, p3⟩
    · rw [if_neg hl] at h
      exact .inr ⟨hl, h⟩

theorem quad_step (u m n : Nat) (h : m * m + 2 * ((u + 127) * m) ≤ 254 * n + 127 * m) :
    (127 + m) * (127 + m) + 2 * (u * (127 + m)) ≤ 254 * (u + n) + 127 * (127 + m) := by
  have e1 : (127 + m) * (127 + m) = 127 * 127 + 254 * m + m * m := by
    rw [Nat.add_mul, Nat.mul_add, Nat.mul_add, Nat.mul_comm m 127]; omega
  have e2 : (u + 127) * m = u * m + 127 * m := Nat.add_mul _ _ _
  have e3 : u * (127 + m) = u * 127 + u * m := Nat.mul_add _ _ _
  omega

theorem quad_base (u L : Nat) (h : L ≤ 127) : L * L + 2 * (u * L) ≤ 254 * u + 127 * L := by
  have e1 : L * L ≤ 127 * L := Nat.mul_le_mul_right L h
  have e2 : u * L ≤ u * 127 := Nat.mul_le_mul_left u h
  omega

/-- the steps of the loop of the portable reader, from below and above -/
theorem fgetsLoopK_cost {env : Env} {d : Bytes} (hd : NUL ∉ d) : ∀ (f used : Nat) {s s' : Io} {r : Option Nat} {n : Nat}, s.Sized →
    strlen s.mem = some used → fgetsLoopK env d f used s = (.ok r s', n) →
    s.n ≤ s'.n ∧ s'.Sized ∧ ((upToLF (d.drop s.fpos)).length = 0 → n = 1 ∧ s'.n = s.n) ∧
    n + s.n ≤ s'.n + 3 * (upToLF (d.drop s.fpos)).length +
      ((upToLF (d.drop s.fpos)).length / 127 + 1) * (used + (upToLF (d.drop s.fpos)).length + 5) + 1 ∧
    (upToLF (d.drop s.fpos)).length * (upToLF (d.drop s.fpos)).length + 2 * (used * (upToLF (d.drop s.fpos)).length) ≤
      254 * n + 127 * (upToLF (d.drop s.fpos)).length := by
  intro f
  induction f with
  | zero => intro used s s' r n _ _ h; cases h
  | succ f ih =>
    intro used s s' r n hs hu h
    by_cases he : d.drop s.fpos = []
    · unfold fgetsLoopK at h
      replace h := K.bind_inv h
      obtain ⟨o, s0, m0, m1, h0, h, q1⟩ := h
      rw [fgetsK_eof he] at h0
      simp only [Prod.mk.injEq, Res.ok.injEq] at h0
      obtain ⟨⟨rfl, rfl⟩, r0⟩ := h0
      dsimp only at h
      obtain ⟨p1, p2, p3⟩ := K.pure_inv h
      subst p2
      rw [he]
      refine ⟨Nat.le_refl _, hs, fun _ => ⟨by omega, rfl⟩, ?_, ?_⟩
      · simp only [upToLF, List.length_nil]; omega
      · simp [upToLF]
    · have htn : NUL ∉ upToLF (d.drop s.fpos) := fun h' => hd (List.mem_of_mem_drop (mem_upToLF h'))
      obtain ⟨b, s1, n1, n2, k1, k2, k3, k4⟩ := fgetsLoopK_round hs he htn hu h
      have hc : NUL ∉ (upToLF (d.drop s.fpos)).take 127 := fun h => htn (List.mem_of_mem_take h)
      have hc0 : (upToLF (d.drop s.fpos)).take 127 ≠ [] := by
        have := upToLF_ne he
        cases hx : upToLF (d.drop s.fpos) with
        | nil => exact absurd hx this
        | cons => simp
      obtain ⟨g1, g2, g3, g4, g5, g6, g7⟩ := chunkIn_ok hc0 hc
        (s := { s with fpos := s.fpos + ((upToLF (d.drop s.fpos)).take 127).length }) hu hs k1
      dsimp only at g5 g7
      have hL0 := List.length_pos_iff.mpr (upToLF_ne he)
      have hlen : ((upToLF (d.drop s.fpos)).take 127).length = min 127 (upToLF (d.drop s.fpos)).length := List.length_take
      have hmul : ∀ a b : Nat, 1 ≤ a → b ≤ a * b := fun a b h => by
        have := Nat.mul_le_mul_right b h; omega
      rcases k4 with ⟨rfl, rfl, rfl, rfl⟩ | ⟨hb, k4⟩
      · -- the piece ends the line
        have hk : (upToLF (d.drop s.fpos)).length ≤ 127 := by
          apply Nat.le_of_not_lt
          intro hgt
          have h1 : LF ∉ (upToLF (d.drop s.fpos)).dropLast := by
            have := rawLines_inner (t := d.drop s.fpos) (l := upToLF (d.drop s.fpos)) (by rw [rawLines_cons he]; simp)
            exact this
          have h2 : LF ∈ (upToLF (d.drop s.fpos)).take 127 := List.mem_of_getLast? g1
          rw [List.dropLast_eq_take] at h1
          refine h1 ?_
          have : (upToLF (d.drop s.fpos)).take 127 = ((upToLF (d.drop s.fpos)).take ((upToLF (d.drop s.fpos)).length - 1)).take 127 := by
            rw [List.take_take]; congr 1; omega
          rw [this] at h2
          exact List.mem_of_mem_take h2
        rw [hlen] at k3
        have e := hmul ((upToLF (d.drop s.fpos)).length / 127 + 1) (used + (upToLF (d.drop s.fpos)).length + 5) (by omega)
        have e' := quad_base used _ hk
        exact ⟨g7, g3, fun h => by omega, by omega, by omega⟩
      · -- another piece
        have hnl : LF ∉ (upToLF (d.drop s.fpos)).take 127 := chunk_noLF (by rw [g1]; simpa using hb)
        have hrest : upToLF (d.drop s.fpos) = (upToLF (d.drop s.fpos)).take 127 ++ upToLF (d.drop s1.fpos) := by
          have h1 : d.drop s.fpos = (upToLF (d.drop s.fpos)).take 127 ++ (d.drop s1.fpos) := by
            rw [g5, ← List.drop_drop]
            conv => lhs; rw [← List.take_append_drop ((upToLF (d.drop s.fpos)).take 127).length (d.drop s.fpos)]
            rw [take_chunk]
          conv => lhs; rw [h1]
          exact upToLF_append hnl
        have hL := congrArg List.length hrest
        rw [List.length_append] at hL
        obtain ⟨i1, i2, i3, i4, i5⟩ := ih _ g3 g2 k4
        generalize ((upToLF (d.drop s.fpos)).take 127).length = k at *
        generalize (upToLF (d.drop s.fpos)).length = L at *
        generalize (upToLF (d.drop s1.fpos)).length = m at *
        by_cases hm : m = 0
        · obtain ⟨j1, j2⟩ := i3 hm
          have e := hmul (L / 127 + 1) (used + L + 5) (by omega)
          have e' := quad_base used L (by omega)
          refine ⟨by omega, i2, fun h => by omega, by omega, by omega⟩
        · have hk : k = 127 := by omega
          subst hk
          subst hL
          have e := quad_step used m n2 i5
          have e1 : (127 + m) / 127 + 1 = (m / 127 + 1) + 1 := by omega
          have e2 : (m / 127 + 1 + 1) * (used + (127 + m) + 5) = (m / 127 + 1) * (used + (127 + m) + 5) + (used + (127 + m) + 5) := by
            rw [Nat.add_mul, Nat.one_mul]
          rw [show used + 127 + m + 5 = used + (127 + m) + 5 by omega] at i4
          refine ⟨by omega, i2, fun h => by omega, ?_, by omega⟩
          rw [e1, e2]
          omega

/-- the steps of the portable `get_line_file` -/
theorem getlinePortableK_cost {env : Env} {d : Bytes} (hd : NUL ∉ d) {s s' : Io} {r : Option Nat} {n : Nat} (hs : s.Sized)
    (h : getlinePortableK env d s = (.ok r s', n)) :
    n + s.n ≤ s'.n + 3 * (upToLF (d.drop s.fpos)).length +
      ((upToLF (d.drop s.fpos)).length / 127 + 1) * ((upToLF (d.drop s.fpos)).length + 5) + 129 ∧
    (upToLF (d.drop s.fpos)).length * (upToLF (d.drop s.fpos)).length ≤ 254 * n + 127 * (upToLF (d.drop s.fpos)).length := by
  unfold getlinePortableK at h
  rw [K.get_bind] at h
  replace h := K.bind_inv h
  obtain ⟨_, s1, m0, m1, h1, h, q1⟩ := h
  obtain ⟨e1, e2, e3, e4, e5, e6, e7, e8, e9, e10⟩ := start_cost hs h1
  replace h := K.bind_inv h
  obtain ⟨_, s2, m2, m3, h2, h, q2⟩ := h
  obtain ⟨h2, r2⟩ := K.of_inv h2
  obtain ⟨a1, a2⟩ := wr_n e8 h2
  obtain ⟨hlt, rfl⟩ := wr_inv h2
  have hu : strlen (s1.mem.set 0 NUL) = some 0 := by
    cases hm : s1.mem with
    | nil => rw [hm] at hlt; simp at hlt
    | cons b m => simp [strlen]
  obtain ⟨b1, b2, b3, b4, b5⟩ := fgetsLoopK_cost hd _ 0 a1 hu h
  dsimp only at b1 b3 b4 b5
  rw [e10] at b3 b4 b5
  rw [Nat.zero_add] at b4
  rw [Nat.zero_mul] at b5
  exact ⟨by omega, by omega⟩

end Io
end Ssp

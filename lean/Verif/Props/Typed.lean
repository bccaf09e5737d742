import Verif.Props.Types
import Verif.Proofs.Number
import Verif.Spec.Parser
/-!
# The values of a row have the types of the row (C57)
-/
namespace Ssp
open Spec

theorem IntTy.zero_in (t : IntTy) : t.Represents 0 := by
  unfold IntTy.Represents
  have h1 : 0 < 2 ^ (t.bits - 1) := Nat.two_pow_pos _
  have h2 : 0 < 2 ^ t.bits := Nat.two_pow_pos _
  have h1' : ((2 : Int) ^ (t.bits - 1)) = ((2 ^ (t.bits - 1) : Nat) : Int) := by simp
  have h2' : ((2 : Int) ^ t.bits) = ((2 ^ t.bits : Nat) : Int) := by simp
  by_cases hs : t.signed = true
  · rw [if_pos hs, h1']; omega
  · rw [if_neg hs, h2']; omega

theorem dflt_isA : (t : Ty) → IsA t t.dflt
  | .int t => .int t.zero_in
  | .bool => .bool _
  | .char => .char _
  | .str => .str _
  | .view => .view _
  | .opt _ => .nullopt
  | .variant [] => .noVariant
  | .variant (t :: _) => .alt (i := 0) (t := t) rfl (dflt_isA t)
  | .custom _ _ => .custom

mutual
theorem extract_isA {mem : Bytes} {b e : Nat} : (t : Ty) → (dst : Val) → {r : Bool × Val} → IsA t dst → extract mem b e t dst = some r → IsA t r.2
  | .int t, dst, r, hd, h => by
    rw [extract] at h
    cases hn : toNum t (textAt mem b e) with
    | none => rw [hn] at h; cases h; exact hd
    | some n =>
      rw [hn] at h; cases h
      exact .int ((toNum_iff t _ n).mp hn).2
  | .bool, dst, r, hd, h => by
    rw [extract] at h
    cases h
    unfold extractBool
    repeat' split
    all_goals first | exact hd | exact .bool _
  | .char, dst, r, hd, h => by
    rw [extract] at h
    cases hm : mem[b]? with
    | none => rw [hm] at h; cases h
    | some x => rw [hm] at h; cases h; exact .char _
  | .str, dst, r, hd, h => by rw [extract] at h; cases h; exact .str _
  | .view, dst, r, hd, h => by rw [extract] at h; cases h; exact .view _
  | .opt t, dst, r, hd, h => by
    rw [extract] at h
    cases he : extract mem b e t t.dflt with
    | none => rw [he] at h; cases h
    | some q =>
      obtain ⟨ok, v⟩ := q
      rw [he] at h
      cases ok with
      | true => cases h; exact .engaged (extract_isA t _ (dflt_isA t) he)
      | false => cases h; exact .nullopt
  | .variant ts, dst, r, hd, h => by
    rw [extract] at h
    exact extractVariant_isA (pre := []) ts dst hd h
  | .custom _ _, _, _, _, _ => .custom
theorem extractVariant_isA {mem : Bytes} {b e : Nat} {pre : List Ty} : (ts : List Ty) → (dst : Val) → {r : Bool × Val} →
    IsA (.variant (pre ++ ts)) dst → extractVariant mem b e ts pre.length dst = some r → IsA (.variant (pre ++ ts)) r.2
  | [], dst, r, hd, h => by rw [extractVariant] at h; cases h; exact hd
  | t :: ts, dst, r, hd, h => by
    rw [extractVariant] at h
    cases he : extract mem b e t t.dflt with
    | none => rw [he] at h; cases h
    | some q =>
      obtain ⟨ok, v⟩ := q
      rw [he] at h
      cases ok with
      | true =>
        cases h
        exact .alt (by simp) (extract_isA t _ (dflt_isA t) he)
      | false =>
        have := extractVariant_isA (pre := pre ++ [t]) ts dst (by simpa using hd) (by simpa using h)
        simpa using this
end

/-! ## Calls -/

/-- whatever is returned has the property -/
def Gives {σ α : Type} (P : α → Prop) (r : Res σ α) : Prop := ∀ a s, r = .ok a s → P a

theorem Gives.pure {σ α : Type} {P : α → Prop} {a : α} (h : P a) (s : σ) : Gives P ((Pure.pure a : M σ α) s) := by
  rintro a' s' h'; cases h'; exact h

theorem Gives.bind {σ α β : Type} {P : β → Prop} {m : M σ α} {f : α → M σ β} {s : σ}
    (h : ∀ a s', m s = .ok a s' → Gives P (f a s')) : Gives P ((m >>= f) s) := by
  intro b s1 hb
  cases hm : m s with
  | ok a s' => rw [M.bind_of_ok hm] at hb; exact h a s' hm b s1 hb
  | exc e s' => rw [M.bind_of_exc hm] at hb; cases hb
  | ub => simp [M.bind_apply, hm] at hb
  | nofuel => simp [M.bind_apply, hm] at hb

theorem Gives.mono {σ α : Type} {P Q : α → Prop} {r : Res σ α} (h : Gives P r) (hq : ∀ a, P a → Q a) : Gives Q r :=
  fun a s hr => hq a (h a s hr)

theorem defaults_row (rs : List Req) : Row (valueTypes rs) (Conv.defaults rs) := by
  induction rs with
  | nil => exact .nil
  | cons r rs ih =>
    cases r with
    | void => exact ih
    | ty t => exact .cons (dflt_isA t) ih
    | valid t p m => exact .cons (dflt_isA t) ih

theorem extractAt_isA {t : Ty} {p : Nat × Nat} {dst : Val} (hd : IsA t dst) (s : Conv) :
    Gives (fun r => IsA t r.2) (Conv.extractAt t p dst s) := by
  intro r s' h
  unfold Conv.extractAt at h
  by_cases hc : s.spl.gen ≠ s.spl.lineGen ∨ p.2 < p.1 ∨ s.spl.mem.length < p.2
  · rw [if_pos hc] at h; cases h
  · rw [if_neg hc] at h
    cases he : extract s.spl.mem p.1 p.2 t dst with
    | none => rw [he] at h; cases h
    | some q => rw [he] at h; cases h; exact extract_isA t dst hd he

theorem ite_ret {σ α : Type} {P : α → Prop} {c : Prop} [Decidable c] {m m' : M σ α} {s : σ} (h1 : c → Gives P (m s))
    (h2 : ¬ c → Gives P (m' s)) : Gives P ((if c then m else m') s) := by
  by_cases h : c
  · rw [if_pos h]; exact h1 h
  · rw [if_neg h]; exact h2 h

theorem extractOne_isA {c : Cfg} {r : Req} {t : Ty} {p : Nat × Nat} {pos : Nat} {dst : Val} (ht : valueTypes [r] = [t])
    (hd : IsA t dst) (s : Conv) : Gives (IsA t) (Conv.extractOne c r p pos dst s) := by
  unfold Conv.extractOne
  refine Gives.bind fun s0 s1 _ => ?_
  refine ite_ret (fun _ => Gives.pure hd _) fun _ => ?_
  have hgen : ∀ u, u = t → Gives (IsA t) ((do
      let (ok, v) ← Conv.extractAt u p dst
      if !ok then
        let text ← Conv.textOf p
        Conv.handleError c (Conv.msgInvalidConversion text pos)
        pure v
      else pure v : M Conv Val) s1) := by
    rintro u rfl
    refine Gives.bind fun r s2 h => ?_
    have hr := extractAt_isA hd s1 r s2 h
    obtain ⟨ok, v⟩ := r
    exact ite_ret (fun _ => Gives.bind fun _ _ _ => Gives.bind fun _ _ _ => Gives.pure hr _) fun _ => Gives.pure hr _
  cases r with
  | void => cases ht
  | ty u =>
    cases ht
    cases t with
    | str =>
      refine Gives.bind fun r s2 h => ?_
      have hr := extractAt_isA hd s1 r s2 h
      obtain ⟨ok, v⟩ := r
      exact Gives.pure hr _
    | _ => exact hgen _ rfl
  | valid u q msg =>
    cases ht
    refine Gives.bind fun r s2 h => ?_
    have hr := extractAt_isA hd s1 r s2 h
    obtain ⟨ok, v⟩ := r
    refine ite_ret (fun _ => Gives.bind fun _ _ _ => Gives.bind fun _ _ _ => Gives.pure hr _) fun _ => ?_
    exact ite_ret (fun _ => Gives.bind fun _ _ _ => Gives.bind fun _ _ _ => Gives.pure hr _) fun _ => Gives.pure hr _

theorem extractMultiple_row {c : Cfg} {elems : List (Nat × Nat)} : ∀ (rs : List Req) (i : Nat) (s : Conv),
    Gives (Row (valueTypes rs)) (Conv.extractMultiple c elems rs i s)
  | [], _, s => Gives.pure .nil s
  | .void :: rs, i, s => by rw [Conv.extractMultiple]; exact extractMultiple_row rs (i + 1) s
  | .ty t :: rs, i, s => by
    rw [Conv.extractMultiple]
    · refine Gives.bind fun _ _ _ => Gives.bind fun _ _ _ => Gives.bind fun v s1 hv => Gives.bind fun vs s2 hvs => Gives.pure ?_ _
      exact .cons (extractOne_isA rfl (dflt_isA t) _ v _ hv) (extractMultiple_row rs (i + 1) _ vs _ hvs)
    · intro h; cases h
  | .valid t p m :: rs, i, s => by
    rw [Conv.extractMultiple]
    · refine Gives.bind fun _ _ _ => Gives.bind fun _ _ _ => Gives.bind fun v s1 hv => Gives.bind fun vs s2 hvs => Gives.pure ?_ _
      exact .cons (extractOne_isA rfl (dflt_isA t) _ v _ hv) (extractMultiple_row rs (i + 1) _ vs _ hvs)
    · intro h; cases h

theorem convertImpl_row (c : Cfg) (rs : List Req) (elems : List (Nat × Nat)) (s : Conv) :
    Gives (Row (valueTypes rs)) (Conv.convertImpl c rs elems s) := by
  unfold Conv.convertImpl
  have hd : ∀ {m : M Conv Unit} {s : Conv}, Gives (Row (valueTypes rs)) ((m >>= fun _ => Pure.pure (Conv.defaults rs)) s) :=
    fun {_} {_} => Gives.bind fun _ _ _ => Gives.pure (defaults_row rs) _
  refine Gives.bind fun _ _ _ => Gives.bind fun _ _ _ => ite_ret (fun _ => hd) fun _ => ite_ret (fun _ => ?_) fun _ => ?_
  · exact ite_ret (fun _ => hd) fun _ => extractMultiple_row rs 0 _
  · exact ite_ret (fun _ => hd) fun _ => ite_ret (fun _ => hd) fun _ => extractMultiple_row rs 0 _

/-- C57: whatever a `convert` returns - values of a row, of the part of a row in front of an error, or defaults - it is one
value of each of the types of the result. -/
theorem C57_convert (c : Cfg) (rs : List Req) (delim : Bytes) {s s' : Conv} {vs : List Val}
    (h : Conv.convertLine c rs delim s = .ok vs s' ∨ Conv.convertCached c rs s = .ok vs s') : Row (valueTypes rs) vs := by
  have h2 : ∀ s, Gives (Row (valueTypes rs)) (Conv.convertCached c rs s) := fun s =>
    Gives.bind fun _ _ _ => convertImpl_row c rs _ _
  rcases h with h | h
  · refine (show Gives (Row (valueTypes rs)) (Conv.convertLine c rs delim s) from ?_) _ _ h
    unfold Conv.convertLine
    refine Gives.bind fun _ _ _ => Gives.bind fun _ _ _ => ite_ret (fun _ => convertImpl_row c rs _ _) fun _ => ?_
    exact Gives.bind fun _ _ _ => Gives.pure (defaults_row rs) _
  · exact h2 s _ _ h

theorem onCur_ret {α : Type} {P : α → Prop} {m : M Conv α} (h : ∀ s, Gives P (m s)) (s : Parser) : Gives P (Parser.onCur m s) := by
  intro a s' ha
  unfold Parser.onCur at ha
  cases hm : m s.rd.cur.conv with
  | ok b cv => rw [hm] at ha; cases ha; exact h _ _ _ hm
  | exc e cv => rw [hm] at ha; cases ha
  | ub => rw [hm] at ha; cases ha
  | nofuel => rw [hm] at ha; cases ha

theorem convertCached_ret (c : Cfg) (rs : List Req) (s : Conv) : Gives (Row (valueTypes rs)) (Conv.convertCached c rs s) :=
  fun _ _ h => C57_convert c rs [] (.inr h)

theorem getNext_ret (x : Ctx) (rs : List Req) (s : Parser) : Gives (Row (valueTypes rs)) (Parser.getNext x rs s) := by
  unfold Parser.getNext
  refine Gives.bind fun _ _ _ => Gives.bind fun _ _ _ => Gives.bind fun s1 s2 _ => ?_
  refine ite_ret (fun _ => Gives.bind fun _ _ _ => Gives.bind fun _ _ _ => Gives.pure (defaults_row rs) _) fun _ => ?_
  refine Gives.bind fun _ _ _ => ite_ret (fun _ => Gives.bind fun _ _ _ => Gives.pure (defaults_row rs) _) fun _ => ?_
  have hthrow : ∀ s, Gives (Row (valueTypes rs)) (Parser.tryCatch
      (do
        let v ← Parser.onCur (Conv.convertCached x.cfg rs)
        Parser.readLine x
        pure v)
      (fun e => do
        Parser.readLine x
        Parser.decorateRethrow x e) s) := by
    intro s a s' h
    unfold Parser.tryCatch at h
    have hm : Gives (Row (valueTypes rs)) ((do
        let v ← Parser.onCur (Conv.convertCached x.cfg rs)
        Parser.readLine x
        pure v : M Parser (List Val)) s) :=
      Gives.bind fun v _ hv => Gives.bind fun _ _ _ => Gives.pure (onCur_ret (convertCached_ret x.cfg rs) _ _ _ hv) _
    generalize ((do
        let v ← Parser.onCur (Conv.convertCached x.cfg rs)
        Parser.readLine x
        pure v : M Parser (List Val)) s) = res at h hm
    cases res with
    | ok v s1 => cases h; exact hm _ _ rfl
    | exc e s1 =>
      refine (show Gives (Row (valueTypes rs)) ((do
        Parser.readLine x
        Parser.decorateRethrow x e : M Parser (List Val)) s1) from Gives.bind fun _ _ _ => ?_) _ _ h
      intro _ _ h; cases h
    | ub => cases h
    | nofuel => cases h
  have hflag : ∀ s, Gives (Row (valueTypes rs)) ((do
      let v ← Parser.onCur (Conv.convertCached x.cfg rs)
      let s ← M.get
      (if Conv.valid x.cfg s.rd.cur.conv then pure () else Parser.handleErrorInvalidConversion x)
      Parser.readLine x
      pure v : M Parser (List Val)) s) := fun s =>
    Gives.bind fun v _ hv => Gives.bind fun _ _ _ => Gives.bind fun _ _ _ => Gives.bind fun _ _ _ =>
      Gives.pure (onCur_ret (convertCached_ret x.cfg rs) _ _ _ hv) _
  unfold Parser.convertRow
  cases x.cfg.mode with
  | throw => exact hthrow _
  | string => exact hflag _
  | bool => exact hflag _

/-- C57: the same for `get_next`, in every state of a parser and whether or not there is an error -/
theorem C57_get_next (x : Ctx) (rs : List Req) {s s' : Parser} {vs : List Val} (h : Parser.getNext x rs s = .ok vs s') :
    Row (valueTypes rs) vs := getNext_ret x rs s _ _ h

/-- the optional of an alternative holds values of the types of this alternative -/
def Alt.Typed (a : Parser.Alt) (o : Option (List Val)) : Prop := ∀ vs, o = some vs → Row (valueTypes a.reqs) vs

theorem tryNext_ret (x : Ctx) (a : Parser.Alt) (s : Parser) : Gives (fun r => Alt.Typed a r.1) (Parser.tryNext x a s) := by
  unfold Parser.tryNext
  refine Gives.bind fun v _ hv => Gives.bind fun s1 _ _ => ite_ret (fun _ => ?_) fun _ => Gives.pure (by intro vs h; cases h) _
  refine Gives.bind fun _ _ _ => Gives.bind fun s2 _ _ => Gives.pure ?_ _
  intro vs h
  by_cases hc : s2.valid x.cfg = true
  · rw [if_pos hc] at h; cases h; exact getNext_ret x a.reqs _ _ _ hv
  · rw [if_neg hc] at h; cases h

theorem orElse_ret (x : Ctx) (a : Parser.Alt) (s : Parser) : Gives (fun r => Alt.Typed a r.1) (Parser.orElse x a s) := by
  unfold Parser.orElse
  refine Gives.bind fun s0 _ _ => ite_ret (fun _ => Gives.pure (by intro vs h; cases h) _) fun _ => ?_
  refine Gives.bind fun v _ hv => Gives.bind fun s1 _ _ => ite_ret (fun _ => ?_) fun _ => Gives.pure (by intro vs h; cases h) _
  refine Gives.bind fun _ _ _ => Gives.bind fun s2 _ _ => Gives.pure ?_ _
  intro vs h
  by_cases hc : s2.valid x.cfg = true
  · rw [if_pos hc] at h; cases h
    refine (show Gives (Row (valueTypes a.reqs)) (Parser.trySame x a.reqs _) from ?_) _ _ hv
    unfold Parser.trySame
    exact Gives.bind fun _ _ _ => Gives.bind fun v _ hv => Gives.bind fun _ _ _ => Gives.bind fun _ _ _ =>
      Gives.pure (onCur_ret (convertCached_ret x.cfg a.reqs) _ _ _ hv) _
  · rw [if_neg hc] at h; cases h

/-- C57: each optional of a chain holds values of the types of its own alternative. -/
theorem C57_chain (x : Ctx) (a : Parser.Alt) (as : List Parser.Alt) {s s' : Parser} {os : List (Option (List Val) × Bool)}
    (h : Parser.tryChain x a as s = .ok os s') : All2 (fun a o => Alt.Typed a o.1) (a :: as) os := by
  have hos : ∀ (as : List Parser.Alt) (s : Parser), Gives (All2 (fun a o => Alt.Typed a o.1) as) (Parser.orElses x as s) := by
    intro as
    induction as with
    | nil => intro s; exact Gives.pure .nil s
    | cons a as ih =>
      intro s
      exact Gives.bind fun r _ hr => Gives.bind fun rest _ hrest => Gives.pure (.cons (orElse_ret x a _ _ _ hr) (ih _ _ _ hrest)) _
  refine (show Gives (All2 (fun a o => Alt.Typed a o.1) (a :: as)) (Parser.tryChain x a as s) from ?_) _ _ h
  exact Gives.bind fun r _ hr => Gives.bind fun rest _ hrest => Gives.pure (.cons (tryNext_ret x a _ _ _ hr) (hos as _ _ _ hrest)) _

/-- a row and a failed row: the values in front of the error and defaults behind it, all of their types -/
example : (match Conv.convertLine { mode := .bool } [.ty (.int ⟨true, 8⟩), .ty (.int ⟨true, 8⟩), .ty .str] (bs ",")
      { spl := { mem := bs "7,300,x" ++ [NUL] } } with
    | .ok vs _ => decide (vs = [.int 7, .int 0, .str []])
    | _ => false) = true := by decide +kernel

end Ssp

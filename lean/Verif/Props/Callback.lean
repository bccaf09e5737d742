import Verif.Proofs.Callback
import Verif.Props.ParserChainMl
/-!
# Callbacks (C66)

`tryLinksC x a ks g`: `p.try_next<...>(f)` followed by any number of `.or_else<...>(f)` and `.on_error(f)`, where `g` is the
data of the user's program that the callbacks read and change.  `Offered` (`Verif.Spec.Callback`) is what should happen to a
row, `OfferedAll` what should happen to the rows of a loop.
-/
namespace Ssp
open Spec Parser

section
variable {γ : Type} {x : Ctx} {s : Parser}

theorem step_chain {a : Alt} {as : List Alt} {o : Obs} {s' : Parser} {outs : List (Option (List Val) × Bool)}
    (he : s.eof = false) (h : step x (.chain a as) s = some (o, s')) (ho : o.ret = .opts outs) : tryChain x a as s = .ok outs s' ∧
      o.valid = s'.valid x.cfg := by
  unfold step at h
  have e : Op.exec x (.chain a as) s = (tryChain x a as >>= fun l => pure (Ret.opts l)) s := by
    unfold Op.exec
    dsimp only
    rw [M.get_bind, he]
    rfl
  rw [e] at h
  cases h2 : tryChain x a as s with
  | ok l s1 =>
    rw [M.bind_of_ok h2] at h
    cases h
    cases ho
    exact ⟨rfl, rfl⟩
  | exc m s1 =>
    have : (tryChain x a as >>= fun l => pure (Ret.opts l)) s = .exc m s1 := by simp only [Bind.bind, M.bind, h2]
    rw [this] at h
    cases h
    cases ho
  | ub =>
    have : (tryChain x a as >>= fun l => pure (Ret.opts l)) s = .ub := by simp only [Bind.bind, M.bind, h2]
    rw [this] at h
    cases h
  | nofuel =>
    have : (tryChain x a as >>= fun l => pure (Ret.opts l)) s = .nofuel := by simp only [Bind.bind, M.bind, h2]
    rw [this] at h
    cases h

/-- at the end of the input a composite is not tried (`Op.chain` is guarded by `!eof()`) -/
theorem step_chain_eof {a : Alt} {as : List Alt} (he : s.eof = true) : ∃ o, step x (.chain a as) s = some (o, s) ∧ o.ret = .opts [] := by
  unfold step Op.exec
  dsimp only
  rw [M.get_bind, he]
  exact ⟨_, rfl, rfl⟩

theorem chains_of {l : Bytes} {Post : Parser → Prop}
    (h : ∀ (a : Alt) (as : List Alt), (∀ b ∈ a :: as, b.reqs ≠ []) →
      ∃ o s' outs, step x (.chain a as) s = some (o, s') ∧ o.ret = .opts outs ∧ outs.length = as.length + 1 ∧
      (∀ (i : Nat) (b : Alt), (a :: as)[i]? = some b → ∃ out, outs[i]? = some out ∧
        (∀ vs, out.1 = some vs ↔ b.Suits x s l vs ∧
          ∀ (j : Nat) (b' : Alt), j < i → (a :: as)[j]? = some b' → ∀ vs', ¬ b'.Suits x s l vs')) ∧
      (o.valid = true ↔ ∃ out ∈ outs, out.1.isSome = true) ∧ Post s') :
    Chains x s (fun rs vs => Ssp.Yields x.cfg (s.fresh x rs l) vs) Post := by
  intro a as hne
  obtain ⟨o, s', outs, h1, h2, h3, h4, h5, h6⟩ := h a as hne
  have he : s.eof = false := by
    cases he : s.eof with
    | false => rfl
    | true =>
      obtain ⟨o', h7, h8⟩ := step_chain_eof (x := x) (a := a) (as := as) he
      rw [h1] at h7
      cases h7
      rw [h2] at h8
      cases h8
      simp at h3
  obtain ⟨h7, h8⟩ := step_chain he h1 h2
  exact ⟨outs, s', h7, h3, h4, by rw [← h8]; exact h5, h6⟩

/-- C66: at any time of the life of a parser, when `l` is the next row: a chain offers this row to its alternatives, one
after the other, as `Offered` tells: each callback is called at most once, with the values of the row, exactly if the row
converts to the types of its alternative and no earlier alternative took it; what it does to the user's data and to the
values stays; if it returns false the row is offered on; `on_error` is called exactly if no alternative before it took the
row.  Then `valid()` holds exactly if an alternative took the row, and exactly this row is consumed. -/
theorem C66_row (hx : x.Ok) (hm : x.cfg.multiline = false) (hth : x.cfg.mode ≠ .throw) (h : Reach x s) {l : Bytes}
    {ls : List Bytes} (hr : x.rest s.line = l :: ls) (a : CbAlt γ) (ks : List (CbLink γ)) (g : γ)
    (hks : ∀ k ∈ CbLink.orElse a :: ks, Asks k) :
    ∃ os g' s', tryLinksC x a ks g s = .ok (os, g') s' ∧
      Offered (fun rs vs => Ssp.Yields x.cfg (s.fresh x rs l) vs) false (.orElse a :: ks) g os g' ∧
      (s'.valid x.cfg = true ↔ ∃ o ∈ os, o.isSome = true) ∧
      Reach x s' ∧ x.rest s'.line = ls ∧ s'.eof = ls.isEmpty ∧ ∀ k, s'.converter k = s.converter k := by
  refine Chains.all (Post := fun s' => Reach x s' ∧ x.rest s'.line = ls ∧ s'.eof = ls.isEmpty ∧
    ∀ k, s'.converter k = s.converter k) (chains_of fun a as hne => ?_) hth a ks g hks
  obtain ⟨o, s', outs, h1, h2, h3, h4, h5, h6, h7, _, h8⟩ := C41_first_that_suits hx hm hth h hr hne
  refine ⟨o, s', outs, h1, h2, h3, fun i b hb => ?_, h5, h.step h1, h6, h7, h8⟩
  obtain ⟨out, k1, k2, _⟩ := h4 i b hb
  exact ⟨out, k1, k2⟩

/-- C66: the same with multiline, when the next row is complete. -/
theorem C66_row_multiline (hx : x.MlOk) (hth : x.cfg.mode ≠ .throw) (h : ReachT x s) {k : Nat} (hk : x.RowTo s.line k)
    (a : CbAlt γ) (ks : List (CbLink γ)) (g : γ) (hks : ∀ k ∈ CbLink.orElse a :: ks, Asks k) :
    ∃ os g' s', tryLinksC x a ks g s = .ok (os, g') s' ∧
      Offered (fun rs vs => Ssp.Yields x.cfg (s.fresh x rs (x.joined s.line k)) vs) false (.orElse a :: ks) g os g' ∧
      (s'.valid x.cfg = true ↔ ∃ o ∈ os, o.isSome = true) ∧
      ReachT x s' ∧ x.rest s'.line = x.rest (s.line + k + 1) ∧ s'.eof = (x.rest (s.line + k + 1)).isEmpty ∧
      s.line + k + 1 ≤ s'.line ∧ (x.cfg.ignoreEmpty = false → s'.line = s.line + k + 1) ∧
      ∀ l, s'.converter l = s.converter l := by
  refine Chains.all (Post := fun s' => ReachT x s' ∧ x.rest s'.line = x.rest (s.line + k + 1) ∧
    s'.eof = (x.rest (s.line + k + 1)).isEmpty ∧ s.line + k + 1 ≤ s'.line ∧
    (x.cfg.ignoreEmpty = false → s'.line = s.line + k + 1) ∧ ∀ l, s'.converter l = s.converter l)
    (chains_of fun a as hne => ?_) hth a ks g hks
  obtain ⟨o, s', outs, h1, h2, h3, h4, h5, h6, h7, h8, h9, h10, h11⟩ := C41_first_that_suits_multiline hx hth h hk hne
  refine ⟨o, s', outs, h1, h2, h3, fun i b hb => ?_, h5, h11, h6, h7, h8, h9, h10⟩
  obtain ⟨out, k1, k2, _⟩ := h4 i b hb
  exact ⟨out, k1, k2⟩

theorem linksC_append (x : Ctx) (ps : List (CbLink γ)) : ∀ (ks : List (CbLink γ)) (g : γ) (s : Parser) {os : List (Option (List Val))}
    {g1 : γ} {s1 : Parser}, linksC x ks g s = .ok (os, g1) s1 →
    linksC x (ks ++ ps) g s = (linksC x ps g1 >>= fun r => pure (os ++ r.1, r.2)) s1
  | [], g, s, os, g1, s1, h => by
    cases h
    show linksC x ps g s = _
    cases h : linksC x ps g s with
    | ok r s' => rw [M.bind_of_ok h]; rfl
    | exc m s' => simp only [Bind.bind, M.bind, h]
    | ub => simp only [Bind.bind, M.bind, h]
    | nofuel => simp only [Bind.bind, M.bind, h]
  | .orElse a :: ks, g, s, os, g1, s1, h => by
    obtain ⟨r, s2, h1, h⟩ := Conv.ok_bind_ok h
    obtain ⟨rest, s3, h2, h⟩ := Conv.ok_bind_ok h
    cases h
    have ih := linksC_append x ps ks r.2 s2 (os := rest.1) (g1 := rest.2) h2
    show (orElseC x a g >>= fun r => linksC x (ks ++ ps) r.2 >>= fun rest => pure (r.1 :: rest.1, rest.2)) s = _
    rw [M.bind_of_ok h1]
    simp only [Bind.bind, M.bind] at ih ⊢
    rw [ih]
    cases linksC x ps rest.2 s1 <;> rfl
  | .onError f :: ks, g, s, os, g1, s1, h => by
    obtain ⟨g', s2, h1, h⟩ := Conv.ok_bind_ok h
    show (onErrorC x f g >>= fun g' => linksC x (ks ++ ps) g') s = _
    rw [M.bind_of_ok h1]
    exact linksC_append x ps ks g' s2 h

/-- C66: the text `on_error` gives to its callback is the one that `error_msg()` returns at this point, that is behind the part
`ks` of the chain before it, when `valid()` is false. -/
theorem C66_on_error_text {a : CbAlt γ} {ks ps : List (CbLink γ)} {f : Callable γ} {g g1 : γ} {s1 : Parser}
    {os : List (Option (List Val))} (h : tryLinksC x a ks g s = .ok (os, g1) s1) (hv : s1.valid x.cfg = false) (ht : f.takes [] = false) :
    tryLinksC x a (ks ++ .onError f :: ps) g s =
      (linksC x ps (f.call [.val (.str s1.err.msg)] g1).2.2 >>= fun r => pure (os ++ r.1, r.2)) s1 := by
  unfold tryLinksC at h ⊢
  obtain ⟨r, s2, h1, h⟩ := Conv.ok_bind_ok h
  obtain ⟨rest, s3, h2, h⟩ := Conv.ok_bind_ok h
  cases h
  rw [M.bind_of_ok h1]
  have e := linksC_append x (.onError f :: ps) ks r.2 s2 (os := rest.1) (g1 := rest.2) h2
  have e2 : linksC x (.onError f :: ps) rest.2 s1 = linksC x ps (f.call [.val (.str s1.err.msg)] rest.2).2.2 s1 := by
    show (onErrorC x f rest.2 >>= fun g' => linksC x ps g') s1 = _
    rw [M.bind_of_ok (a := (f.call [.val (.str s1.err.msg)] rest.2).2.2) (s' := s1)
      (by unfold onErrorC; rw [if_neg (by simp [hv]), if_neg (by simp [ht])])]
  simp only [Bind.bind, M.bind] at e ⊢
  rw [e, e2]
  cases linksC x ps (f.call [.val (.str s1.err.msg)] rest.2).2.2 s1 <;> rfl

theorem fresh_of_converter {s s' : Parser} (h : ∀ k, s'.converter k = s.converter k) (rs : List Req) (l : Bytes) :
    s'.fresh x rs l = s.fresh x rs l := by
  unfold Parser.fresh; rw [h]

/-- C66: the loop `while (!p.eof()) p.try_next<...>(f).or_else<...>(f)...;` offers all rows that are left to its
alternatives, each once and in order: the user's data afterwards are what the callbacks make of it, row by row. -/
theorem C66_loop (hx : x.Ok) (hm : x.cfg.multiline = false) (hth : x.cfg.mode ≠ .throw) (a : CbAlt γ)
    (ks : List (CbLink γ)) (hks : ∀ k ∈ CbLink.orElse a :: ks, Asks k) : ∀ (ls : List Bytes) {s : Parser} (g : γ), Reach x s →
    s.eof = (x.rest s.line).isEmpty → x.rest s.line = ls → ∀ f, ls.length < f →
    ∃ oss g' s', loopC x a ks f g s = .ok (oss, g') s' ∧
      OfferedAll (fun l rs vs => Ssp.Yields x.cfg (s.fresh x rs l) vs) (.orElse a :: ks) ls g oss g' ∧ s'.eof = true := by
  intro ls
  induction ls with
  | nil =>
    intro s g h he hr f hf
    cases f with
    | zero => simp at hf
    | succ f =>
      rw [hr] at he
      refine ⟨[], g, s, ?_, .nil, he⟩
      unfold loopC
      rw [M.get_bind, if_pos (show s.eof = true from he)]
      rfl
  | cons l ls ih =>
    intro s g h he hr f hf
    cases f with
    | zero => simp at hf
    | succ f =>
      obtain ⟨os, g1, s1, h1, h2, _, h3, h4, h5, h6⟩ := C66_row hx hm hth h hr a ks g hks
      obtain ⟨oss, g2, s2, k1, k2, k3⟩ := ih g1 h3 (by rw [h5, h4]) h4 f (by simpa using hf)
      simp only [fresh_of_converter h6] at k2
      refine ⟨os :: oss, g2, s2, ?_, .cons h2 k2, k3⟩
      rw [hr] at he
      unfold loopC
      rw [M.get_bind, if_neg (by rw [he]; simp), M.bind_of_ok h1, M.bind_of_ok k1]
      rfl

/-- C66: the same loop with multiline, over an input whose remaining rows `ls` are complete. -/
theorem C66_loop_multiline (hx : x.MlOk) (hth : x.cfg.mode ≠ .throw) (a : CbAlt γ) (ks : List (CbLink γ))
    (hks : ∀ k ∈ CbLink.orElse a :: ks, Asks k) : ∀ (ls : List Bytes) {s : Parser} (g : γ), ReachT x s →
    s.eof = (x.rest s.line).isEmpty → x.MlRows s.line (ls.map .text) → ∀ f, ls.length < f →
    ∃ oss g' s', loopC x a ks f g s = .ok (oss, g') s' ∧
      OfferedAll (fun l rs vs => Ssp.Yields x.cfg (s.fresh x rs l) vs) (.orElse a :: ks) ls g oss g' ∧ s'.eof = true := by
  intro ls
  induction ls with
  | nil =>
    intro s g h he hL f hf
    cases f with
    | zero => simp at hf
    | succ f =>
      rw [(mlRows_rest hL).mp rfl] at he
      refine ⟨[], g, s, ?_, .nil, he⟩
      unfold loopC
      rw [M.get_bind, if_pos (show s.eof = true from he)]
      rfl
  | cons l ls ih =>
    intro s g h he hL f hf
    cases f with
    | zero => simp at hf
    | succ f =>
      have hr : x.rest s.line ≠ [] := fun hc => by cases (mlRows_rest hL).mpr hc
      have hst := starts_here hx.live h hr
      generalize hn : s.line = n at hL
      cases hL with
      | @text n m k L h1 h2 h3 =>
        subst hn
        have := hst.unique h1
        subst this
        obtain ⟨os, g1, s1, h4, h5, _, h6, h7, h8, h9, _, h10⟩ := C66_row_multiline hx hth h h2 a ks g hks
        obtain ⟨oss, g2, s2, k1, k2, k3⟩ := ih g1 h6 (by rw [h8, h7]) (mlRows_same h9 h7.symm h3) f (by simpa using hf)
        simp only [fresh_of_converter h10] at k2
        refine ⟨os :: oss, g2, s2, ?_, .cons h5 k2, k3⟩
        have he' : s.eof = false := by
          rw [he]
          cases hc : x.rest s.line with
          | nil => exact absurd hc hr
          | cons => rfl
        unfold loopC
        rw [M.get_bind, if_neg (by rw [he']; simp), M.bind_of_ok h4, M.bind_of_ok k1]
        rfl

end

/-! ## Examples -/

namespace Demo
/-- the user's data of the examples: the arguments of all calls, by the name of the callback -/
abbrev Log := List (String × List CbArg)

/-- a callback that logs its arguments and returns `r` -/
def logs (name : String) (takes : List (Tp Req) → Bool) (r : List CbArg → Option Bool := fun _ => none) : Callable Log :=
  ⟨takes, fun args g => (r args, args, g ++ [(name, args)])⟩

/-- a lambda with `n` parameters of types that fit -/
def params (n : Nat) (ts : List (Tp Req)) : Bool := ts.length == n
/-- the values and the log of a loop over the input -/
def looped (c : Cfg) (d : String) (a : CbAlt Log) (ks : List (CbLink Log)) : Option (List (List (Option (List Val))) × Log) :=
  match loopC (ctx c d) a ks 100 [] (start c d) with
  | .ok r _ => some r
  | _ => none
end Demo

open Demo in
/-- four alternatives: the first callback refuses even numbers, the third is given the whole tuple (it has one parameter), the
fourth the values one by one (it has three); no alternative before `on_error` takes the last two rows -/
example : looped cs "1\n2\na,3\nb\nc,4,5\n" ⟨[num], some (logs "odd" (params 1) fun
      | [.val (.int n)] => some (n % 2 == 1)
      | _ => some true)⟩
    [.orElse ⟨[num], some (logs "any" (params 1))⟩, .orElse ⟨[str, num], some (logs "pair" (params 1))⟩,
     .onError (logs "failed" (params 0)), .orElse ⟨[str, num, num], some (logs "spread" (params 3))⟩] =
    some ([[some [.int 1], none, none, none], [none, some [.int 2], none, none],
       [none, none, some [.str (bs "a"), .int 3], none], [none, none, none, none],
       [none, none, none, some [.str (bs "c"), .int 4, .int 5]]],
      [("odd", [.val (.int 1)]), ("odd", [.val (.int 2)]), ("any", [.val (.int 2)]),
       ("pair", [.tup [.str (bs "a"), .int 3]]), ("failed", []), ("failed", []),
       ("spread", [.val (.str (bs "c")), .val (.int 4), .val (.int 5)])]) := by
  decide +kernel

open Demo in
/-- the hypotheses of `C66_loop` are met by a new parser -/
example : ∃ oss g' s', loopC (ctx cs "1\nx\n") ⟨[num], some (logs "n" (params 1))⟩ [.orElse ⟨[str], some (logs "s" (params 1))⟩]
      100 ([] : Log) (start cs "1\nx\n") = .ok (oss, g') s' ∧
    OfferedAll (fun l rs vs => Ssp.Yields cs ((start cs "1\nx\n").fresh (ctx cs "1\nx\n") rs l) vs)
      [.orElse ⟨[num], some (logs "n" (params 1))⟩, .orElse ⟨[str], some (logs "s" (params 1))⟩] [bs "1", bs "x"] [] oss g' ∧
    s'.eof = true :=
  C66_loop (ok cs cs_wf _) rfl (by decide) _ _
    (by intro k hk; simp at hk; rcases hk with rfl | rfl <;> (show valueTypes _ ≠ []; decide)) _ _
    (created cs_wf rfl _).reach (by decide +kernel) (by decide +kernel) 100 (by decide)

open Demo in
/-- the hypotheses of `C66_loop_multiline` are met by a new parser, and a row of two lines -/
example : ∃ oss g' s', loopC (ctx cm "a,1\n\"b\nc\",2\n") ⟨[str, num], some (logs "n" (params 2))⟩ [] 100 ([] : Log)
      (start cm "a,1\n\"b\nc\",2\n") = .ok (oss, g') s' ∧
    OfferedAll (fun l rs vs => Ssp.Yields cm ((start cm "a,1\n\"b\nc\",2\n").fresh (ctx cm "a,1\n\"b\nc\",2\n") rs l) vs)
      [.orElse ⟨[str, num], some (logs "n" (params 2))⟩] [bs "a,1", bs "\"b\nc\",2"] [] oss g' ∧ s'.eof = true := by
  have hn : NUL ∉ bs "a,1\n\"b\nc\",2\n" := by decide +kernel
  refine C66_loop_multiline (cm_ok hn) (by decide) _ _
    (by intro k hk; simp at hk; subst hk; show valueTypes _ ≠ []; decide) _ _ (createdM cm_wf _).reachT (by decide +kernel) ?_ 100 (by decide)
  have h0 : (start cm "a,1\n\"b\nc\",2\n").line = 0 := by decide +kernel
  rw [h0]
  exact twoRows

open Demo in
/-- a callback may change the values: it is given references to them -/
example : looped cs "1,2\n" ⟨[num, num], some ⟨params 2, fun _ g => (none, [.val (.int 7), .val (.int 8)], g)⟩⟩ [] =
    some ([[some [.int 7, .int 8]]], []) := by
  decide +kernel

open Demo in
/-- `on_error` is given the text of the error of the last alternative (which for `or_else` names the line behind the row) -/
example : (looped cs "x\n2\n" ⟨[num], none⟩ [.onError (logs "first" (params 1)), .orElse ⟨[str, str], none⟩,
      .onError (logs "second" (params 1))]).map (·.2) =
    some [("first", [.val (.str (bs "f 1: invalid conversion for parameter at column 1: 'x'"))]),
      ("second", [.val (.str (bs "f 2: invalid number of columns, expected: 2, got: 1"))])] := by
  decide +kernel

open Demo in
/-- C66, as the comment at parser.hpp:495-499 says, but a trap: a callback that can be called with anything, like
`[](auto&&... values) {...}`, is called without arguments, and never sees the row. -/
theorem C66_variadic : looped cs "1,2\n" ⟨[num, num], some (logs "variadic" fun _ => true)⟩ [] =
    some ([[some [.int 1, .int 2]]], [("variadic", [])]) := by
  decide +kernel

end Ssp

import Verif.Proofs.Ev
/-!
# `#join` in any context
-/

namespace Sqlf

open Spec

theorem strJoin_glue (sep x y : Str) (r : List Str) :
    strJoin sep ((x ++ sep ++ y) :: r) = strJoin sep (x :: y :: r) := by
  cases r with
  | nil => simp [strJoin]
  | cons z r => simp [strJoin]

theorem foldl_joinAppend (sep : Str) (ts : List Str) (acc : Str) :
    ts.foldl (joinAppend sep) acc =
      strJoin sep ((if acc = [] then [] else [acc]) ++ ts.filter (· ≠ [])) := by
  induction ts generalizing acc with
  | nil =>
    by_cases h : acc = []
    · subst h; rfl
    · simp [h, strJoin]
  | cons t ts ih =>
    rw [List.foldl_cons, ih]
    unfold joinAppend
    by_cases ht : t = []
    · subst ht
      simp
    · by_cases h : acc = []
      · subst h
        simp [ht]
      · have h1 : acc ++ (sep ++ t) ≠ [] := by simp [ht]
        have h2 : acc ++ sep ++ t = acc ++ (sep ++ t) := List.append_assoc ..
        simp only [ne_eq, ht, not_false_eq_true, if_true, h, h2, h1, if_false, decide_not,
          List.filter_cons, decide_false, Bool.not_false]
        rw [← h2]
        exact strJoin_glue sep acc t _

section
variable {L : GoLib} {ctx : Ctx}

theorem joinLoop_ev {es : List Expr} {sep : Str} {first to : Int} {i : Int} {s s' : St}
    {ts : List Str}
    (h : InOrder (fun i s t s1 => Ev (fun n => run L n ctx (.clause (joinInst es i))) s (.ok t, s1))
      i s ts s') (acc : Str) (s'' : St)
    (hend : (to > 0 ∧ ts ≠ [] ∧ i + ts.length = to + 1 ∧ s'' = s') ∨
      (¬ to > 0 ∧ (first > 0 → i + ts.length ≠ first) ∧ ∃ e, e.isInvalidIndex = true ∧
        Ev (fun n => run L n ctx (.clause (joinInst es (i + ts.length)))) s' (.err e, s''))) :
    ∃ N, ∀ n, N ≤ n → ∀ m, N ≤ m →
      joinLoop (run L n) ctx es sep first to m i acc s = (.ok (ts.foldl (joinAppend sep) acc), s'') := by
  induction h generalizing acc with
  | nil i s =>
    rcases hend with ⟨-, h, -⟩ | ⟨hto, hf, e, he, N, hev⟩
    · exact absurd rfl h
    · refine ⟨N + 1, fun n hn m hm => ?_⟩
      cases m with
      | zero => omega
      | succ m =>
        unfold joinLoop
        have h1 := hev n (by omega)
        simp only [List.length_nil, Int.natCast_zero, Int.add_zero] at h1 hf
        rw [h1]
        dsimp only
        rw [he, if_pos rfl, if_neg (by omega)]
        rfl
  | @cons i s s1 s2 t ts h hs ih =>
    obtain ⟨N, h⟩ := h
    replace h : ∀ n, N ≤ n → run L n ctx (.clause (joinInst es i)) s = (.ok t, s1) := h
    by_cases hlast : to > 0 ∧ ts = []
    · obtain ⟨hto, rfl⟩ := hlast
      cases hs
      rcases hend with ⟨-, -, hi, rfl⟩ | ⟨hto', -⟩
      · refine ⟨N + 1, fun n hn m hm => ?_⟩
        cases m with
        | zero => omega
        | succ m =>
          unfold joinLoop
          rw [h n (by omega)]
          dsimp only
          simp only [List.length_cons, List.length_nil] at hi
          rw [if_pos ⟨hto, by omega⟩]
          rfl
      · exact absurd hto hto'
    · have hend' : (to > 0 ∧ ts ≠ [] ∧ i + 1 + ts.length = to + 1 ∧ s'' = s2) ∨
          (¬ to > 0 ∧ (first > 0 → i + 1 + ts.length ≠ first) ∧ ∃ e, e.isInvalidIndex = true ∧
          Ev (fun n => run L n ctx (.clause (joinInst es (i + 1 + ts.length)))) s2 (.err e, s'')) := by
        have hl : i + ((t :: ts).length : Int) = i + 1 + ts.length := by
          simp only [List.length_cons]; omega
        rw [hl] at hend
        rcases hend with ⟨h1, h2, h3, h4⟩ | h1
        · exact .inl ⟨h1, fun hn => hlast ⟨h1, hn⟩, h3, h4⟩
        · exact .inr h1
      obtain ⟨N', ih⟩ := ih (joinAppend sep acc t) hend'
      refine ⟨max N N' + 1, fun n hn m hm => ?_⟩
      cases m with
      | zero => omega
      | succ m =>
        unfold joinLoop
        rw [h n (by omega)]
        dsimp only
        have hgo : ¬ (to > 0 ∧ i ≥ to) := by
          rintro ⟨h1, h2⟩
          rcases hend' with ⟨-, h3, h4, -⟩ | ⟨h3, -⟩
          · cases ts with
            | nil => exact h3 rfl
            | cons a b => simp only [List.length_cons] at h4; omega
          · exact h3 h1
        rw [if_neg hgo]
        exact ih n (by omega) m (by omega)

/-- The function can be used in a `#join` template. -/
def Joinable (L : GoLib) (ctx : Ctx) (name : Str) : Prop :=
  ∃ f, ctx.fn name = some f ∧ ∀ s, Ev (fun n => joinCompatible (run L n) f) s (.ok true, s)

theorem joinCheck_ev {es : List Expr} (h : ∀ g ∈ bareFuncs es, Joinable L ctx g) (s : St) :
    Ev (fun n => joinCheck (run L n) ctx es) s (.ok (bareFuncs es).length, s) := by
  induction es with
  | nil => exact .const _ _
  | cons e es ih =>
    cases e with
    | func g =>
      obtain ⟨f, h1, h2⟩ := h g (by simp [bareFuncs])
      obtain ⟨N1, h2⟩ := h2 s
      obtain ⟨N2, h3⟩ := ih fun g hg => h g (by simp [bareFuncs, hg])
      refine ⟨max N1 N2, fun n hn => ?_⟩
      show joinCheck (run L n) ctx (.func g :: es) s = _
      unfold joinCheck
      rw [h1]
      refine (bind_of_ok (h2 n (by omega))).trans ?_
      exact (bind_of_ok (h3 n (by omega))).trans rfl
    | plain _ => exact ih h
    | bindVar _ _ => exact ih h
    | call _ _ => exact ih h

theorem builtIn_joinable {name : Str} (hn : isListFunc name = true) (hb : BuiltIn L ctx name) :
    Joinable L ctx name := by
  obtain ⟨b, hf, hbn⟩ := rootCtx_index hn
  refine ⟨_, (builtIn_fn hb).trans hf, fun s => ⟨1, fun n hn => ?_⟩⟩
  cases n with
  | zero => omega
  | succ n =>
    rcases hbn with ⟨rfl, -⟩ | ⟨rfl, -⟩
    · exact (joinCompatible_index L n name s).1
    · exact (joinCompatible_index L n name s).2

/-- A call of `#join` is `funcJoin`. -/
theorem evalExpr_join {as : List CallArg} {tm sep : Str} {is : List Int}
    (hb : BuiltIn L ctx (lit "join")) (ha : joinArgs L as = .ok (tm, sep, is)) (n : Nat) (s : St) :
    evalExpr L (run L n) n ctx (.call (lit "join") as) s =
      M.wrapErr (lit "join") (safeCall (funcJoin L (run L n) n ctx tm sep is)) s := by
  have hf : ctx.fn (lit "join") = some joinInfo := (builtIn_fn hb).trans (rootCtx_builtin _)
  show evalFunction L (run L n) n ctx (lit "join") as s = _
  unfold evalFunction
  rw [hf]
  dsimp only
  rcases evalCall_join L (run L n) n ctx as with ⟨t, u, is', vs, h1, h2, h3, h4, h5⟩ | ⟨h1, -⟩ | ⟨h1, -⟩
  · rw [h1] at ha
    cases ha
    rw [h5]
    have : callBody L (run L n) n ctx (.builtin .join) vs = funcJoin L (run L n) n ctx tm sep is := by
      rw [← h2, ← h3, ← h4]; rfl
    rw [this]
    show M.wrapErr _ (safeCall (M.bind _ fun s => .pure s)) s = _
    rw [bind_pure]
  · rw [h1] at ha; cases ha
  · rw [h1] at ha; cases ha

/-- After its checks, `#join` is its loop. -/
theorem funcJoin_ev {tm sep : Str} {is : List Int} {est : List Expr} {s : St} {r : Out Str × St}
    (hp : parse L tm = .ok est) (hl : is.length ≤ 2) (hr : is.getD 1 0 > 0 → is.getD 0 0 ≤ is.getD 1 0)
    (hj : ∀ g ∈ bareFuncs est, Joinable L ctx g) (hne : bareFuncs est ≠ [])
    (hloop : ∃ N, ∀ n, N ≤ n → ∀ m, N ≤ m → joinLoop (run L n) ctx est sep (is.getD 0 0) (is.getD 1 0) m
      (max (is.getD 0 0) 1) [] s = r) :
    Ev (fun n => funcJoin L (run L n) n ctx tm sep is) s r := by
  have hlo : (if is.getD 0 0 ≤ 0 then 1 else is.getD 0 0) = max (is.getD 0 0) 1 := by
    split <;> omega
  obtain ⟨N, hloop⟩ := hloop
  obtain ⟨N', hchk⟩ := joinCheck_ev hj s
  refine ⟨max N N', fun n hn => ?_⟩
  show funcJoin L (run L n) n ctx tm sep is s = _
  unfold funcJoin
  rw [if_neg (by omega), if_neg (by omega), hp]
  refine (bind_of_ok (hchk n (by omega))).trans ?_
  have : (bareFuncs est).length ≠ 0 := by simpa using hne
  rw [if_neg this, hlo]
  exact hloop n (by omega) n (by omega)

/-- An item fails, in a way that ends the loop. -/
theorem joinLoop_fail {es : List Expr} {sep : Str} {first to : Int} {i : Int} {s s' : St}
    {ts : List Str}
    (h : InOrder (fun i s t s1 => Ev (fun n => run L n ctx (.clause (joinInst es i))) s (.ok t, s1))
      i s ts s') (acc : Str) (s'' : St) {o : Out Str} (hto : to > 0 → i + ts.length ≤ to)
    (hend : Ev (fun n => run L n ctx (.clause (joinInst es (i + ts.length)))) s' (o, s''))
    (ho : (∃ p, o = .panic p) ∨ ∃ e, o = .err e ∧ (e.isInvalidIndex = false ∨
      (first > 0 ∧ i + ts.length = first) ∨ to > 0)) :
    ∃ N, ∀ n, N ≤ n → ∀ m, N ≤ m →
      joinLoop (run L n) ctx es sep first to m i acc s = (o, s'') := by
  induction h generalizing acc with
  | nil i s =>
    obtain ⟨N, hev⟩ := hend
    refine ⟨N + 1, fun n hn m hm => ?_⟩
    cases m with
    | zero => omega
    | succ m =>
      unfold joinLoop
      have h1 := hev n (by omega)
      simp only [List.length_nil, Int.natCast_zero, Int.add_zero] at h1 ho hto
      rw [h1]
      rcases ho with ⟨p, rfl⟩ | ⟨e, rfl, he⟩
      · rfl
      · dsimp only
        cases hi : e.isInvalidIndex with
        | false => rfl
        | true =>
          rw [if_pos rfl, if_pos]
          rcases he with he | he | he
          · rw [hi] at he; cases he
          · exact .inl he
          · exact .inr ⟨he, hto he⟩
  | @cons i s s1 s2 t ts h hs ih =>
    obtain ⟨N, h⟩ := h
    replace h : ∀ n, N ≤ n → run L n ctx (.clause (joinInst es i)) s = (.ok t, s1) := h
    have hl : i + ((t :: ts).length : Int) = i + 1 + ts.length := by
      simp only [List.length_cons]; omega
    rw [hl] at hend ho hto
    obtain ⟨N', ih⟩ := ih (joinAppend sep acc t) hto hend ho
    refine ⟨max N N' + 1, fun n hn m hm => ?_⟩
    cases m with
    | zero => omega
    | succ m =>
      unfold joinLoop
      rw [h n (by omega)]
      dsimp only
      rw [if_neg (by rintro ⟨h1, h2⟩; have := hto h1; omega)]
      exact ih n (by omega) m (by omega)

/-- A `#join` whose items are evaluated. -/
theorem join_ev {as : List CallArg} {tm sep : Str} {is : List Int} {est : List Expr} {s s' s'' : St}
    {ts : List Str} (hb : BuiltIn L ctx (lit "join")) (ha : joinArgs L as = .ok (tm, sep, is))
    (hp : parse L tm = .ok est) (hl : is.length ≤ 2) (hr : is.getD 1 0 > 0 → is.getD 0 0 ≤ is.getD 1 0)
    (hj : ∀ g ∈ bareFuncs est, Joinable L ctx g) (hne : bareFuncs est ≠ [])
    (h : InOrder (fun i s t s1 => Ev (fun n => run L n ctx (.clause (atIndex i est))) s (.ok t, s1))
      (max (is.getD 0 0) 1) s ts s')
    (hend : (is.getD 1 0 > 0 ∧ ts ≠ [] ∧ max (is.getD 0 0) 1 + ts.length = is.getD 1 0 + 1 ∧ s'' = s') ∨
      (¬ is.getD 1 0 > 0 ∧ (is.getD 0 0 > 0 → ts ≠ []) ∧ ∃ e, e.isInvalidIndex = true ∧
        Ev (fun n => run L n ctx (.clause (atIndex (max (is.getD 0 0) 1 + ts.length) est)))
          s' (.err e, s''))) :
    Ev (fun n => evalExpr L (run L n) n ctx (.call (lit "join") as)) s
      (.ok (strJoin sep (ts.filter (· ≠ []))), s'') := by
  refine Ev.congr ?_ (fun n => evalExpr_join hb ha n s)
  refine .wrapErr (.safeCall ?_)
  have hloop := joinLoop_ev (es := est) (sep := sep) (first := is.getD 0 0) (to := is.getD 1 0)
    (by simpa only [joinInst_eq] using h) [] s'' (by
      rcases hend with h1 | ⟨h1, h2, h3⟩
      · exact .inl h1
      · refine .inr ⟨h1, fun h4 => ?_, by simpa only [joinInst_eq] using h3⟩
        have := h2 h4
        cases ts with
        | nil => exact absurd rfl this
        | cons a b => simp only [List.length_cons]; omega)
  have hfold : ts.foldl (joinAppend sep) [] = strJoin sep (ts.filter (· ≠ [])) := by
    rw [foldl_joinAppend]; rfl
  rw [hfold] at hloop
  exact funcJoin_ev hp hl hr hj hne hloop

/-- A `#join` one of whose items fails. -/
theorem join_fail {as : List CallArg} {tm sep : Str} {is : List Int} {est : List Expr} {s s' s'' : St}
    {ts : List Str} {o : Out Str} (hb : BuiltIn L ctx (lit "join")) (ha : joinArgs L as = .ok (tm, sep, is))
    (hp : parse L tm = .ok est) (hl : is.length ≤ 2)
    (hj : ∀ g ∈ bareFuncs est, Joinable L ctx g) (hne : bareFuncs est ≠ [])
    (h : InOrder (fun i s t s1 => Ev (fun n => run L n ctx (.clause (atIndex i est))) s (.ok t, s1))
      (max (is.getD 0 0) 1) s ts s')
    (hto : is.getD 1 0 > 0 → max (is.getD 0 0) 1 + ts.length ≤ is.getD 1 0)
    (hend : Ev (fun n => run L n ctx (.clause (atIndex (max (is.getD 0 0) 1 + ts.length) est))) s' (o, s''))
    (ho : (∃ p, o = .panic p) ∨ ∃ e, o = .err e ∧ (e.isInvalidIndex = false ∨
      (is.getD 0 0 > 0 ∧ max (is.getD 0 0) 1 + ts.length = is.getD 0 0) ∨ is.getD 1 0 > 0)) :
    ∃ e, Ev (fun n => evalExpr L (run L n) n ctx (.call (lit "join") as)) s (.err (.wrap (lit "join") e), s'') ∧
      (o = .err e ∨ ∃ p, o = .panic p ∧ e = p.toErr) := by
  have hloop := joinLoop_fail (es := est) (sep := sep) (first := is.getD 0 0) (to := is.getD 1 0)
    (by simpa only [joinInst_eq] using h) [] s'' hto (by simpa only [joinInst_eq] using hend) ho
  have hev := funcJoin_ev hp hl (fun h => by have := hto h; omega) hj hne hloop
  rcases ho with ⟨p, rfl⟩ | ⟨e, rfl, -⟩
  · refine ⟨p.toErr, Ev.congr (.wrapErr_err ?_) (fun n => evalExpr_join hb ha n s), .inr ⟨p, rfl, rfl⟩⟩
    obtain ⟨N, hev⟩ := hev
    refine ⟨N, fun n hn => ?_⟩
    have h1 : funcJoin L (run L n) n ctx tm sep is s = _ := hev n hn
    show safeCall (funcJoin L (run L n) n ctx tm sep is) s = _
    unfold safeCall
    rw [h1]
  · exact ⟨e, Ev.congr (.wrapErr_err (.safeCall_err hev)) (fun n => evalExpr_join hb ha n s), .inl rfl⟩

/-! ## An index that does not exist -/

theorem joinLoop_ok {rec : Rec} {es : List Expr} {sep : Str} {first to : Int} {P : Int → Prop}
    (hP : ∀ i s t s', rec ctx (.clause (joinInst es i)) s = (.ok t, s') → P i)
    {m : Nat} {i : Int} {acc : Str} {s s' : St} {t : Str} (hi : to > 0 → i ≤ to)
    (hf : first > 0 → first ≤ i)
    (h : joinLoop rec ctx es sep first to m i acc s = (.ok t, s')) :
    (to > 0 → P to) ∧ (first > 0 → i = first → P first) := by
  induction m generalizing i acc s with
  | zero => simp [joinLoop] at h
  | succ m ih =>
    unfold joinLoop at h
    rcases hr : rec ctx (.clause (joinInst es i)) s with ⟨o, s1⟩
    rw [hr] at h
    cases o with
    | ok u =>
      dsimp only at h
      have hPi := hP i s u s1 hr
      refine ⟨fun hto => ?_, fun _ hfi => hfi ▸ hPi⟩
      split at h
      · rename_i hlast
        have : i = to := by have := hi hto; omega
        exact this ▸ hPi
      · rename_i hgo
        exact (ih (fun _ => by omega) (fun hf' => by have := hf hf'; omega) h).1 hto
    | err e =>
      dsimp only at h
      split at h
      · split at h
        · cases h
        · rename_i hn
          exact ⟨fun hto => absurd (.inr ⟨hto, hi hto⟩) hn, fun hf' hfi => absurd (.inl ⟨hf', hfi⟩) hn⟩
      · cases h
    | panic p => simp at h
    | oof => simp at h

theorem joinExpr_ok {n : Nat} {as : List CallArg} {tm sep : Str} {is : List Int} {est : List Expr}
    (hb : BuiltIn L ctx (lit "join")) (ha : joinArgs L as = .ok (tm, sep, is))
    (hp : parse L tm = .ok est) {P : Int → Prop}
    (hP : ∀ i s t s', run L n ctx (.clause (atIndex i est)) s = (.ok t, s') → P i)
    {s s' : St} {t : Str} (h : evalExpr L (run L n) n ctx (.call (lit "join") as) s = (.ok t, s')) :
    (is.getD 1 0 > 0 → P (is.getD 1 0)) ∧ (is.getD 0 0 > 0 → P (is.getD 0 0)) := by
  have hf : ctx.fn (lit "join") = some joinInfo := (builtIn_fn hb).trans (rootCtx_builtin _)
  change evalFunction L (run L n) n ctx (lit "join") as s = _ at h
  unfold evalFunction at h
  rw [hf] at h
  dsimp only at h
  rcases evalCall_join L (run L n) n ctx as with ⟨t', u, is', vs, h1, h2, h3, h4, h5⟩ | ⟨h1, -⟩ | ⟨h1, -⟩
  · rw [h1] at ha
    cases ha
    rw [h5] at h
    have : callBody L (run L n) n ctx (.builtin .join) vs = funcJoin L (run L n) n ctx tm sep is := by
      rw [← h2, ← h3, ← h4]; rfl
    rw [this] at h
    obtain ⟨a, s1, h6, -⟩ := bind_ok (safeCall_ok.1 (wrapErr_ok.1 h))
    unfold funcJoin at h6
    split at h6
    · simp [M.err] at h6
    · dsimp only at h6
      split at h6
      · simp [M.err] at h6
      · rename_i hlen hrange
        rw [hp] at h6
        obtain ⟨k, s2, -, h7⟩ := bind_ok (m := joinCheck (run L n) ctx est) h6
        split at h7
        · simp [M.err] at h7
        · have := joinLoop_ok (P := P) (fun i s t s' h => hP i s t s' (by rw [← joinInst_eq]; exact h))
            (by intro hto; split <;> omega) (by intro hf; split <;> omega) h7
          exact ⟨this.1, fun hf => this.2 hf (by rw [if_neg (by omega)])⟩
  · rw [h1] at ha; cases ha
  · rw [h1] at ha; cases ha

theorem mem_atIndex {g : Str} {est : List Expr} (h : .func g ∈ est) (i : Int) :
    .call g [.int i] ∈ atIndex i est := by
  induction est with
  | nil => cases h
  | cons e est ih =>
    rcases List.mem_cons.1 h with rfl | h'
    · simp [atIndex]
    · have := ih h'
      cases e <;> simp [atIndex, this]

theorem clause_index_ok {n : Nat} {fr : Frame} (hc : ctx.frame = some fr) {g : Str}
    (hg : isListFunc g = true) (hb : BuiltIn L ctx g) {est : List Expr} (hm : .func g ∈ est)
    (i : Int) (s : St) (t : Str) (s' : St)
    (h : run L n ctx (.clause (atIndex i est)) s = (.ok t, s')) :
    1 ≤ i ∧ i ≤ listLen fr.args.length fr.frags.length g := by
  cases n with
  | zero => simp [run] at h
  | succ n =>
    change buildClause L (run L n) n ctx (atIndex i est) s = _ at h
    obtain ⟨s2, t2, s3, h3⟩ := buildClause_ok_mem h _ (mem_atIndex hm i)
    obtain ⟨j, h4, h5⟩ := evalFunction_index_ok hc hg hb h3
    cases h4
    exact h5

end

/-! ## The end of the lists -/

/-- The template of a `#join` starts, after text, with a bare function over the shortest list. -/
theorem clause_end {L : GoLib} {ctx : Ctx} {fr : Frame} (hc : ctx.frame = some fr) {est : List Expr}
    {g : Str} {gs : List Str} (hg : isListFunc g = true) (hb : BuiltIn L ctx g)
    (hbf : bareFuncs est = g :: gs) (ht : tidyItems fr.args.length fr.frags.length est = true)
    {i : Int} (hi : i > listLen fr.args.length fr.frags.length g) (s : St) :
    Ev (fun n => run L n ctx (.clause (atIndex i est))) s (.err (.wrap g (.invalidIndex i)), s) := by
  rw [Ev.run]
  induction est with
  | nil => simp [bareFuncs] at hbf
  | cons e es ih =>
    cases e with
    | plain t =>
      have := ih hbf ht
      exact Ev.bind (k := fun n a => M.bind (buildClause L (run L n) n ctx (atIndex i es)) fun t => .pure (a ++ t))
        (Ev.const (M.pure t) s) (Ev.bind_err this)
    | func h =>
      simp only [bareFuncs, List.cons.injEq] at hbf
      obtain ⟨rfl, -⟩ := hbf
      exact Ev.clause_err ⟨0, fun n _ => evalExpr_index_err hc hg hb rfl (.inr hi) s⟩
    | bindVar _ _ => simp [tidyItems] at ht
    | call _ _ => simp [tidyItems] at ht

theorem ev_run_clause_single {L : GoLib} {ctx : Ctx} {e : Expr} {s s1 : St} {t : Str}
    (h : Ev (fun n => evalExpr L (run L n) n ctx e) s (.ok t, s1)) :
    Ev (fun n => run L n ctx (.clause [e])) s (.ok t, s1) := by
  rw [Ev.run]
  have := Ev.clause_cons (es := []) h (.const (M.pure []) s1)
  rw [List.append_nil] at this
  exact this

/-- A bare function at the end of a template is followed by an empty text. -/
theorem ev_run_clause_bare {L : GoLib} {ctx : Ctx} {e : Expr} {s s1 : St} {t : Str}
    (h : Ev (fun n => evalExpr L (run L n) n ctx e) s (.ok t, s1)) :
    Ev (fun n => run L n ctx (.clause [e, .plain []])) s (.ok t, s1) := by
  rw [Ev.run]
  have := Ev.clause_cons (es := [.plain []]) h
    (Ev.clause_cons (es := []) (.const (M.pure []) s1) (.const (M.pure []) s1))
  rw [List.append_nil, List.append_nil] at this
  exact this

/-! ## All fragments, all arguments -/

/-- The marks after the first `k` items. -/
def marks : Nat → List Nat
  | 0 => []
  | k + 1 => k :: marks k

theorem mem_marks {k n : Nat} (h : k < n) : k ∈ marks n := by
  induction n with
  | zero => omega
  | succ n ih =>
    by_cases hk : k = n
    · simp [marks, hk]
    · exact List.mem_cons_of_mem _ (ih (by omega))

theorem Spec.BuildsTo.used {L : GoLib} {ctx : Ctx} {b : Builder} {s s' : St} {o : Out Str}
    (h : BuildsTo L ctx b s (o, s')) : s'.usedA = s.usedA ∧ s'.usedF = s.usedF := by
  obtain ⟨-, N, h⟩ := h
  have h1 := (build_used L N ctx b).out s
  rw [h N (Nat.le_refl _)] at h1
  exact h1

theorem Spec.BuildsTo.scoped {L : GoLib} {ctx ctx' : Ctx} (hf : ctx.funcs = ctx'.funcs) {b : Builder}
    {s s' : St} {o : Out Str} (h : BuildsTo L ctx b s (o, s')) (a f : List Nat) :
    BuildsTo L ctx' b (setUsed s a f) (o, setUsed s' a f) := by
  obtain ⟨hne, N, h⟩ := h
  refine ⟨hne, N, fun n hn => ?_⟩
  have h1 := (run_build_free L n ctx ctx' hf b).out s a f
  rw [h n hn] at h1
  exact h1

theorem Spec.InOrder.used {L : GoLib} {ctx : Ctx} {cs : List Builder} {i : Int} {s s' : St} {ts : List Str}
    (h : InOrder (fun i s t s1 => ∃ c, item? i cs = some c ∧ BuildsTo L ctx c s (.ok t, s1)) i s ts s') :
    s'.usedA = s.usedA ∧ s'.usedF = s.usedF := by
  induction h with
  | nil => exact ⟨rfl, rfl⟩
  | cons h _ ih =>
    obtain ⟨c, -, h⟩ := h
    have := h.used
    exact ⟨ih.1.trans this.1, ih.2.trans this.2⟩

/-- The items of `#join('#f', …)`. -/
theorem frag_items {L : GoLib} {ctx : Ctx} {f : Fragment} {g : Str}
    (hg : g = lit "f" ∨ g = lit "fragment") (hb : BuiltIn L ctx g) {k : Nat} {i : Int}
    (hi : i = k + 1) {s s' : St} {ts : List Str}
    (h : InOrder (fun i s t s1 => ∃ c, item? i f.frags = some c ∧ BuildsTo L ctx c s (.ok t, s1))
      i s ts s') :
    InOrder (fun i s t s1 =>
      Ev (fun n => run L n (ctx.withFragment f) (.clause (atIndex i [.func g, .plain []]))) s (.ok t, s1))
      i (setUsed s [] (marks k)) ts (setUsed s' [] (marks (k + ts.length))) := by
  induction h generalizing k with
  | nil => exact .nil _ _
  | @cons i s s1 s2 t ts h _ ih =>
    obtain ⟨c, hc, h⟩ := h
    have hk : k + (t :: ts).length = k + 1 + ts.length := by simp only [List.length_cons]; omega
    rw [hk]
    refine .cons ?_ (ih (k := k + 1) (by omega))
    refine ev_run_clause_bare (ev_frag_call (ctx := ctx.withFragment f) (fr := ⟨f.args, f.frags⟩) rfl hg
      (builtIn_withFragment f hb) (i := i) rfl hc ?_)
    have h1 := (Spec.BuildsTo.scoped (ctx := ctx) (ctx' := ctx.withFragment f) rfl h [] (marks (k + 1))).2
    have h2 : (i - 1).toNat = k := by omega
    rw [h2]
    exact h1

/-- The items of `#join('#arg', …)`. -/
theorem arg_items {L : GoLib} {ctx : Ctx} {f : Fragment} (hb : BuiltIn L ctx (lit "arg"))
    {vs : List Val} {k : Nat} {i : Int} (hi : i = k + 1)
    (hv : ∀ j : Nat, vs[j]? = f.args[k + j]?) {s : St} {st : Store} {ps : List Str}
    (h : commitAll s.store vs = some (ps, st)) (uf : List Nat) :
    InOrder (fun i s t s1 =>
      Ev (fun n => run L n (ctx.withFragment f) (.clause (atIndex i [.func (lit "arg"), .plain []]))) s (.ok t, s1))
      i (setUsed s (marks k) uf) ps (setUsed { s with store := st } (marks (k + ps.length)) uf) := by
  induction vs generalizing k i s ps with
  | nil =>
    simp only [commitAll, Option.some.injEq, Prod.mk.injEq] at h
    obtain ⟨rfl, rfl⟩ := h
    exact .nil _ _
  | cons v vs ih =>
    unfold commitAll at h
    cases hc : s.store.commit v with
    | none => rw [hc] at h; cases h
    | some r =>
      obtain ⟨p, st1⟩ := r
      rw [hc] at h
      dsimp only at h
      cases ha : commitAll st1 vs with
      | none => rw [ha] at h; cases h
      | some r =>
        obtain ⟨qs, st2⟩ := r
        rw [ha] at h
        simp only [Option.some.injEq, Prod.mk.injEq] at h
        obtain ⟨rfl, rfl⟩ := h
        have h1 := ih (k := k + 1) (i := i + 1) (s := { s with store := st1 }) (by omega) (fun j => by
          have := hv (j + 1)
          rw [List.getElem?_cons_succ] at this
          rw [this]; congr 1; omega) ha
        have hk : k + (p :: qs).length = k + 1 + qs.length := by simp only [List.length_cons]; omega
        rw [hk]
        refine .cons ?_ h1
        have h2 : item? i f.args = some v := by
          unfold item?
          rw [if_pos (by omega)]
          have := hv 0
          rw [List.getElem?_cons_zero] at this
          have h3 : (i - 1).toNat = k + 0 := by omega
          rw [h3, ← this]
        have h3 := ev_arg_call (ctx := ctx.withFragment f) (fr := ⟨f.args, f.frags⟩)
          (s := setUsed s (marks k) uf) rfl (builtIn_withFragment f hb) (as := [.int i]) rfl h2 hc
        have h4 : (i - 1).toNat = k := by omega
        rw [h4] at h3
        exact ev_run_clause_bare h3

end Sqlf

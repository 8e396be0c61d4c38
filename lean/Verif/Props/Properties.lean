import Verif.Model.Properties
import Verif.Props.Derived
import Verif.Props.Join
import Verif.Props.Store
import Verif.Spec.Query
import Verif.KernelRfl
/-!
# C91: lists shared by fragments

`propertiesFunc L ps` is the function `func(ctx, i) { return ps.Build(ctx, i) }` of the documentation;
`Shares L ctx name ps`: it is what `name` means in the context.
-/

namespace Sqlf.Props

open Spec

/-- In the context, `#name` is the function of the list `ps`. -/
def Shares (L : GoLib) (ctx : Ctx) (name : Str) (ps : List Builder) : Prop :=
  ∃ ins v outs body, propertiesFunc L ps = .func ins v outs body ∧ ctx.fn name = some ⟨name, ins, v, outs, body⟩

/-- The argument of a call is the number `i`, given by a template or by `#join`. -/
def IsIndex (L : GoLib) (a : CallArg) (i : Int) : Prop := a = .int i ∨ ∃ x, a = .num x ∧ x.toInt L = i

/-- **C91** A list given to ContextWithFuncs under a name is what this name means in the new context. -/
theorem C91_lists_are_shared (L : GoLib) (ctx ctx' : Ctx) (fm : FuncMap) (hm : IsMap fm) (name : Str) (ps : List Builder)
    (hp : (name, propertiesFunc L ps) ∈ fm) (hc : contextWithFuncs L ctx fm = .ok ctx') : Shares L ctx' name ps :=
  ⟨_, _, _, _, rfl, (C38_nearest_definition_wins L ctx ctx' fm hm hc name).1 _ _ _ _ hp⟩

private theorem call_eq {L : GoLib} {ctx : Ctx} {name : Str} {ps : List Builder} (hs : Shares L ctx name ps) :
    ∃ fi, ctx.fn name = some fi ∧ ItemFunc fi ∧ ∀ (a : CallArg) (i : Int), IsIndex L a i → ∀ rec n c,
      evalCall L rec n c fi [a] = .wrapErr name (safeCall (M.bind (runProg L rec c (propertiesBuild ps i)) fun s => .pure s)) := by
  obtain ⟨_, _, _, _, he, hf⟩ := hs
  cases he
  refine ⟨_, hf, ⟨⟨.int, 0, .inr rfl⟩, rfl, rfl⟩, ?_⟩
  rintro a i (rfl | ⟨x, rfl, rfl⟩) rec n c <;> rfl

private theorem item_ev {L : GoLib} {ctx : Ctx} {ps : List Builder} {i : Int} {b : Builder} (h1 : 1 ≤ i)
    (hb : ps[(i - 1).toNat]? = some b) {s s' : St} {o : Out Str} (h : BuildsTo L ctx b s (o, s')) :
    Ev (fun n => runProg L (run L n) ctx (propertiesBuild ps i)) s (o, s') := by
  have hk : position i ps.length = some (i - 1).toNat := by
    unfold position
    have := (List.getElem?_eq_some_iff.1 hb).1
    rw [if_neg (by omega)]
  obtain ⟨hne, N, h⟩ := h
  refine ⟨N, fun n hn => ?_⟩
  have hp : propertiesBuild ps i = .build b returnBuild := by
    unfold propertiesBuild
    simp only [hk, hb]
  show runProg L (run L n) ctx (propertiesBuild ps i) s = _
  rw [hp]
  simp only [runProg]
  rw [h n hn]
  cases o <;> first | rfl | exact absurd rfl hne

private theorem ev_wrap {w : Str} {m : Nat → M Str} {s s' : St} {o : Out Str} (h : Ev m s (o, s')) :
    ∃ o', (∀ t, o = .ok t ↔ o' = .ok t) ∧ (o ≠ .oof → o' ≠ .oof) ∧ (∀ e, o = .err e → o' = .err (.wrap w e)) ∧
      (∀ p, o = .panic p → ∃ e, o' = .err e) ∧
      Ev (fun n => .wrapErr w (safeCall (M.bind (m n) fun s => .pure s))) s (o', s') := by
  cases o with
  | ok t => exact ⟨.ok t, by simp, by simp, by simp, by simp, .wrapErr (.safeCall (.bind h (Ev.const _ _)))⟩
  | err e => exact ⟨_, by simp, by simp, by simp, by simp, .wrapErr_err (.safeCall_err (.bind_err h))⟩
  | panic p =>
    obtain ⟨N, h⟩ := h
    refine ⟨.err (.wrap w p.toErr), by simp, by simp, by simp, fun _ _ => ⟨_, rfl⟩, N, fun n hn => ?_⟩
    refine wrapErr_of_err ?_
    unfold safeCall
    rw [bind_of_panic (h n hn)]
  | oof =>
    obtain ⟨N, h⟩ := h
    refine ⟨.oof, by simp, by simp, by simp, by simp, N, fun n hn => ?_⟩
    show M.wrapErr w (safeCall (M.bind (m n) fun s => .pure s)) s = _
    unfold M.wrapErr safeCall M.bind
    simp only [h n hn]

/-- **C91** `#name(i)` of a shared list builds its `i`-th item in the context of the call: it succeeds exactly if
the item builds, with its text and its effects on the arguments.  If the item fails (or panics), so does the call. -/
theorem C91_item_is_built (L : GoLib) (ctx : Ctx) (name : Str) (ps : List Builder) (hs : Shares L ctx name ps)
    (a : CallArg) (i : Int) (ha : IsIndex L a i) (b : Builder) (h1 : 1 ≤ i) (hb : ps[(i - 1).toNat]? = some b)
    (s s' : St) (o : Out Str) (h : BuildsTo L ctx b s (o, s')) :
    ∃ o', Evals L ctx (.clause [.call name [a]]) s (o', s') ∧ (∀ t, o = .ok t ↔ o' = .ok t) ∧
      (∀ e, o = .err e → o' = .err (.wrap name e)) ∧ ∀ p, o = .panic p → ∃ e, o' = .err e := by
  obtain ⟨fi, hf, -, hcall⟩ := call_eq hs
  obtain ⟨o', h2, h3, h4, h5, h6⟩ := ev_wrap (w := name) (item_ev h1 hb h)
  refine ⟨o', ?_, h2, h4, h5⟩
  have hev : Ev (fun n => evalExpr L (run L n) n ctx (.call name [a])) s (o', s') := by
    refine Ev.congr h6 fun n => ?_
    show evalFunction L (run L n) n ctx name [a] s = _
    unfold evalFunction
    rw [hf]
    show evalCall L (run L n) n ctx fi [a] s = _
    rw [hcall a i ha]
  refine ⟨h3 h.1, ?_⟩
  cases ho : o' with
  | ok t => subst ho; exact ev_run_clause_single hev
  | err e => subst ho; exact Ev.run.2 (Ev.clause_err hev)
  | panic p => subst ho; cases o with
    | ok t => have := (h2 t).1 rfl; cases this
    | err e => have := h4 e rfl; cases this
    | panic p => obtain ⟨e, he⟩ := h5 p rfl; cases he
    | oof => exact absurd rfl h.1
  | oof => exact absurd ho (h3 h.1)

private theorem outside_ev {L : GoLib} {ctx : Ctx} {ps : List Builder} {i : Int} (hi : i < 1 ∨ ps.length < i) (s : St) :
    Ev (fun n => runProg L (run L n) ctx (propertiesBuild ps i)) s (.err (.invalidIndex i), s) := by
  refine ⟨0, fun n _ => ?_⟩
  have hp : propertiesBuild ps i = .fail (.invalidIndex i) := by
    unfold propertiesBuild position
    rw [if_pos (by omega)]
  show runProg L (run L n) ctx (propertiesBuild ps i) s = _
  rw [hp]
  rfl

/-- **C91** An index outside the list is an error that is ErrInvalidIndex, and nothing else happens. -/
theorem C91_index_outside_the_list (L : GoLib) (ctx : Ctx) (name : Str) (ps : List Builder) (hs : Shares L ctx name ps)
    (a : CallArg) (i : Int) (ha : IsIndex L a i) (hi : i < 1 ∨ ps.length < i) (s : St) :
    ∃ e, Evals L ctx (.clause [.call name [a]]) s (.err e, s) ∧ e.isInvalidIndex = true := by
  obtain ⟨fi, hf, -, hcall⟩ := call_eq hs
  refine ⟨.wrap name (.invalidIndex i), evals_clause.2 ⟨by simp, Ev.clause_err ?_⟩, rfl⟩
  refine Ev.congr (.wrapErr_err (.safeCall_err (.bind_err (k := fun _ s => .pure s) (outside_ev (L := L) (ctx := ctx) hi s)))) fun n => ?_
  show evalFunction L (run L n) n ctx name [a] s = _
  unfold evalFunction
  rw [hf]
  show evalCall L (run L n) n ctx fi [a] s = _
  rw [hcall a i ha]

/-- **C91** `#join('#name', sep)` of a shared list builds all its items, one after the other, and nothing else; its
text is the non-empty ones joined. -/
theorem C91_join_of_a_list (L : GoLib) (ctx : Ctx) (name tm sep : Str) (ps : List Builder) (hs : Shares L ctx name ps)
    (hj : BuiltIn L ctx (lit "join")) (ht : parse L tm = .ok [.func name, .plain []]) (s s' : St) (ts : List Str)
    (h : BuildsAll L ctx ps s ts s') :
    Evals L ctx (.clause [.call (lit "join") [.str tm, .str sep]]) s
      (.ok (strJoin sep (ts.filter (· ≠ []))), s') := by
  obtain ⟨fi, hf, hi, hcall⟩ := call_eq hs
  have hlen : ts.length = ps.length := by
    clear hs hcall
    induction h with
    | nil => rfl
    | cons _ _ ih => simp [ih]
  refine C43_custom_function_joined L ctx name tm sep fi s s' ts hj hf hi ?_ ht ?_
  · intro c s i hi
    refine ⟨.wrap name (.invalidIndex i), rfl, evals_iff.2 ⟨by simp, ?_⟩⟩
    refine Ev.congr (.wrapErr_err (.safeCall_err (.bind_err (k := fun _ s => .pure s)
      (outside_ev (L := L) (ctx := c) (ps := ps) (i := i) (by omega) s)))) fun n => ?_
    show evalCall L (run L n) n c fi [.int i] s = _
    rw [hcall _ i (.inl rfl)]
  · have gen : ∀ (qs rest : List Builder) (s s' : St) (ts : List Str), ps = qs ++ rest → BuildsAll L ctx rest s ts s' →
        InOrder (fun i s t s1 => Evals L ctx (.call fi [.int i]) s (.ok t, s1)) (qs.length + 1) s ts s' := by
      intro qs rest s s' ts he h
      induction h generalizing qs with
      | nil => exact .nil _ _
      | @cons b bs s s1 s2 t ts hb _ ih =>
        refine .cons (s1 := s1) (evals_iff.2 ⟨by simp, ?_⟩) ?_
        · have hget : ps[((qs.length : Int) + 1 - 1).toNat]? = some b := by
            rw [he]
            simp
          refine Ev.congr (.wrapErr (w := name) (.safeCall (.bind (k := fun _ s => .pure s)
            (item_ev (L := L) (ctx := ctx) (by omega) hget hb) (Ev.const _ _)))) fun n => ?_
          show evalCall L (run L n) n ctx fi [.int (qs.length + 1)] s = _
          rw [hcall _ _ (.inl rfl)]
        · have := ih (qs ++ [b]) (by simp [he])
          simpa using this
    exact gen [] ps s s' ts rfl h

private theorem args_built {L : GoLib} {ctx : Ctx} {vs : List Val} {s : St} {phs : List Str} {st : Store}
    (h : commitAll s.store vs = some (phs, st)) : BuildsAll L ctx (newArgsProperties vs) s phs { s with store := st } := by
  induction vs generalizing s phs with
  | nil => cases h; exact .nil _
  | cons v vs ih =>
    unfold commitAll at h
    cases hc : s.store.commit v with
    | none => rw [hc] at h; cases h
    | some r =>
      obtain ⟨p, st1⟩ := r
      rw [hc] at h
      dsimp only at h
      cases hr : commitAll st1 vs with
      | none => rw [hr] at h; cases h
      | some r =>
        obtain ⟨qs, st2⟩ := r
        rw [hr] at h
        cases h
        refine .cons (s1 := { s with store := st1 }) (buildsTo_iff.2 ⟨by simp, 0, fun n _ => ?_⟩) (ih hr)
        show M.bind (commitArg v) (fun t => runProg L (run L n) ctx (.ret t)) s = _
        unfold M.bind commitArg
        rw [hc]
        rfl

private theorem marks_nonempty {st st' : Store} {vs : List Val} {phs : List Str} (h : commitAll st vs = some (phs, st')) :
    phs.filter (· ≠ []) = phs := by
  apply List.filter_eq_self.2
  induction vs generalizing st phs with
  | nil => cases h; simp
  | cons v vs ih =>
    unfold commitAll at h
    cases hc : st.commit v with
    | none => rw [hc] at h; cases h
    | some r =>
      obtain ⟨p, st1⟩ := r
      rw [hc] at h
      dsimp only at h
      cases hr : commitAll st1 vs with
      | none => rw [hr] at h; cases h
      | some r =>
        obtain ⟨qs, st2⟩ := r
        rw [hr] at h
        cases h
        intro q hq
        rcases List.mem_cons.1 hq with rfl | hq
        · unfold Store.commit at hc
          split at hc
          · split at hc
            · cases hc
            · split at hc <;> cases hc <;> simp [lit]
          · cases hc; simp [lit]
        · exact ih hr q hq

/-- **C91** `#join('#name', sep)` of a shared list of arguments commits all of them in order; its text is their
placeholders joined (`commitAll`, see C13 to C15). -/
theorem C91_join_of_arguments (L : GoLib) (ctx : Ctx) (name tm sep : Str) (vs : List Val)
    (hs : Shares L ctx name (newArgsProperties vs)) (hj : BuiltIn L ctx (lit "join"))
    (ht : parse L tm = .ok [.func name, .plain []]) (s : St) (phs : List Str) (st : Store)
    (h : commitAll s.store vs = some (phs, st)) :
    Evals L ctx (.clause [.call (lit "join") [.str tm, .str sep]]) s (.ok (strJoin sep phs), { s with store := st }) := by
  have := C91_join_of_a_list L ctx name tm sep _ hs hj ht s _ phs (args_built h)
  rwa [marks_nonempty h] at this

/-- **C91** A list made by `NewFragmentProperties(b1, ..., bn)`: `#name(i)` is built as `bi` is, an index outside of
1, ..., n is invalid, and `#join('#name', sep)` builds all of them in order. -/
theorem C91_fragment_lists (L : GoLib) (ctx : Ctx) (name : Str) (bs : List Builder)
    (hs : Shares L ctx name (newFragmentProperties bs)) :
    (∀ (a : CallArg) (i : Nat) (b : Builder), IsIndex L a (i + 1) → bs[i]? = some b → ∀ s s' t,
      BuildsTo L ctx b s (.ok t, s') → Evals L ctx (.clause [.call name [a]]) s (.ok t, s')) ∧
    (∀ (a : CallArg) (i : Int), IsIndex L a i → i < 1 ∨ bs.length < i → ∀ s,
      ∃ e, Evals L ctx (.clause [.call name [a]]) s (.err e, s) ∧ e.isInvalidIndex = true) ∧
    ∀ tm sep, BuiltIn L ctx (lit "join") → parse L tm = .ok [.func name, .plain []] → ∀ s s' ts,
      BuildsAll L ctx bs s ts s' → Evals L ctx (.clause [.call (lit "join") [.str tm, .str sep]]) s
        (.ok (strJoin sep (ts.filter (· ≠ []))), s') := by
  refine ⟨fun a i b ha hb s s' t h => ?_, fun a i ha hi s => C91_index_outside_the_list L ctx name _ hs a i ha hi s,
    fun tm sep hj ht s s' ts h => C91_join_of_a_list L ctx name tm sep _ hs hj ht s s' ts h⟩
  obtain ⟨o', h1, h2, -⟩ := C91_item_is_built L ctx name _ hs a (i + 1) ha b (by omega)
    (by rw [show ((i : Int) + 1 - 1).toNat = i by omega]; exact hb) s s' _ h
  rw [← (h2 t).1 rfl]
  exact h1

/-- **C91** In a Dollar context with any arguments `log`: once a shared list of arguments (equal to themselves) was
joined, it has the same text everywhere else in the build, whatever else (`more`) was committed in between, and adds
no argument. -/
theorem C91_arguments_are_shared (L : GoLib) (ctx : Ctx) (name tm sep : Str) (vs : List Val)
    (hs : Shares L ctx name (newArgsProperties vs)) (hj : BuiltIn L ctx (lit "join"))
    (ht : parse L tm = .ok [.func name, .plain []]) (hv : ∀ v ∈ vs, GoEqual v v ∧ ¬ Unhashable v)
    (log more : List Val) (s0 s1 s2 : St) (t : Str) (ps qs : List Str)
    (h0 : commitAll (Store.new dollar) log = some (ps, s0.store))
    (h1 : Evals L ctx (.clause [.call (lit "join") [.str tm, .str sep]]) s0 (.ok t, s1))
    (h2 : commitAll s1.store more = some (qs, s2.store)) :
    Evals L ctx (.clause [.call (lit "join") [.str tm, .str sep]]) s2 (.ok t, s2) := by
  obtain ⟨ps1, st1, hc⟩ := C14_dollar_commit_succeeds vs (fun v h => (hv v h).2) s0.store
  have he := Ev.unique (m := fun n => run L n ctx _) h1.2 (C91_join_of_arguments L ctx name tm sep vs hs hj ht s0 ps1 st1 hc).2
  simp only [Prod.mk.injEq, Out.ok.injEq] at he
  obtain ⟨rfl, rfl⟩ := he
  have hinv : s0.store.Inv := commitAll_inv (Store.new_inv dollar) h0
  have hd : s0.store.isDollar = true := (commitAll_prefix h0).2
  refine C91_join_of_arguments L ctx name tm sep vs hs hj ht s2 ps1 s2.store ?_
  refine recommit (commitAll_inv (commitAll_inv hinv hc) h2) ((commitAll_prefix h2).2.trans ((commitAll_prefix hc).2.trans hd))
    (commitAll_length hc) (commitAll_hashable hd hc) fun i v hiv => ?_
  obtain ⟨k, w, hp, hw, he⟩ := commitAll_resolve hinv hd hc i v hiv
  refine ⟨k, w, hp, getElem?_prefix (commitAll_prefix h2).1 hw, ?_⟩
  rcases he with rfl | he
  · exact (goEqual_iff _ _).1 (hv _ (List.mem_of_getElem? hiv)).1
  · exact he

def idCtx (L : GoLib) (vs : List Val) : Ctx :=
  match contextWithFuncs L rootCtx [(lit "_id", propertiesFunc L (newArgsProperties vs))] with
  | .ok c => c
  | .error _ => rootCtx

def idUnion : Builder := .frag (.Ff (lit "#join('#fragment', ' UNION ')")
  [.frag (.F (lit "SELECT id FROM foo WHERE id IN (#join('#_id', ', '))")),
   .frag (.F (lit "SELECT id FROM bar WHERE id IN (#join('#_id', ', '))"))])

/-- The example of the documentation: three arguments shared by two fragments. -/
example (L : GoLib) (vs : List Val) (hvs : vs = [.int 64 1, .int 64 2, .int 64 3]) :
    contextWithFuncs L rootCtx [(lit "_id", propertiesFunc L (newArgsProperties vs))] = .ok (idCtx L vs) ∧
      Shares L (idCtx L vs) (lit "_id") (newArgsProperties vs) ∧ BuiltIn L (idCtx L vs) (lit "join") ∧
      parse L (lit "#_id") = .ok [.func (lit "_id"), .plain []] ∧ (∀ v ∈ vs, GoEqual v v ∧ ¬ Unhashable v) ∧
      ∃ s', BuildsTo L (idCtx L vs) idUnion (St.init dollar []) (.ok (lit ("SELECT id FROM foo WHERE id IN ($1, $2, $3) UNION " ++
          "SELECT id FROM bar WHERE id IN ($1, $2, $3)")), s') ∧ s'.store.args = vs := by
  subst hvs
  refine ⟨by kernel_rfl, ?_, ⟨_, newContext_eq L, by kernel_rfl⟩, by kernel_rfl, ?_,
    (run L 200 (idCtx L [.int 64 1, .int 64 2, .int 64 3]) (.build idUnion) (St.init dollar [])).2,
    buildsTo_of_run (n := 200) (by kernel_rfl) (by simp), by kernel_rfl⟩
  · exact C91_lists_are_shared L rootCtx _ _ (by simp [IsMap]) _ _ (List.mem_singleton.2 rfl) (by kernel_rfl)
  · intro v hv
    simp only [List.mem_cons, List.not_mem_nil, or_false] at hv
    rcases hv with rfl | rfl | rfl <;> exact ⟨.int _ _, fun h => by cases h⟩

def idTwice : Builder := .frag (.Fa (lit "#join('#_id', ', ') #arg1 #join('#_id', ', ') #_id2") [.int 64 7])

/-- A list joined twice with another argument in between. -/
example (L : GoLib) : ∃ s', BuildsTo L (idCtx L [.int 64 1, .int 64 2]) idTwice (St.init dollar [])
      (.ok (lit "$1, $2 $3 $1, $2 $2"), s') :=
  ⟨(run L 200 (idCtx L [.int 64 1, .int 64 2]) (.build idTwice) (St.init dollar [])).2,
    buildsTo_of_run (n := 200) (by kernel_rfl) (by simp)⟩

/-- An index outside the list. -/
example (L : GoLib) : ∃ s', BuildsTo L (idCtx L [.int 64 1, .int 64 2]) (.frag (.F (lit "#_id3"))) (St.init dollar [])
      (.err (.wrap (lit "#_id3") (.wrap (lit "_id") (.invalidIndex 3))), s') :=
  ⟨(run L 200 (idCtx L [.int 64 1, .int 64 2]) (.build (.frag (.F (lit "#_id3")))) (St.init dollar [])).2,
    buildsTo_of_run (n := 200) (by kernel_rfl) (by simp)⟩

/-- A list of two tables that is shared. -/
example (L : GoLib) : ∃ ctx', Shares L ctx' (lit "_f") (newFragmentProperties [.table (lit "a"), .table (lit "b")]) ∧
    parse L (lit "#_f") = .ok [.func (lit "_f"), .plain []] ∧
    ∀ s, BuildsAll L ctx' [.table (lit "a"), .table (lit "b")] s [lit "a", lit "b"] s :=
  ⟨(contextWithFuncs L rootCtx
      [(lit "_f", propertiesFunc L (newFragmentProperties [.table (lit "a"), .table (lit "b")]))]).toOption.getD rootCtx,
    C91_lists_are_shared L rootCtx _ _ (by simp [IsMap]) _ _ (List.mem_singleton.2 rfl) (by kernel_rfl), by kernel_rfl,
    fun _ => .cons (buildsTo_iff.2 ⟨by simp, .const _ _⟩) (.cons (buildsTo_iff.2 ⟨by simp, .const _ _⟩) (.nil _))⟩

end Sqlf.Props

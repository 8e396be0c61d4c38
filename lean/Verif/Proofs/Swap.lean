import Verif.Spec.Swap
import Verif.Proofs.Lockstep
/-!
# Builders with replaced parts: query builders and their dependencies
-/

namespace Sqlf

open Spec

/-! ## Reflexivity -/

section
variable {E : Builder → Builder → Prop}

mutual
theorem swapped_refl : ∀ b, Swapped E b b
  | .nil => .nil
  | .nilFrag => .nilFrag
  | .frag f => .frag (swappedF_refl f)
  | .nilColumn => .nilColumn
  | .columnNilFrag t => .columnNilFrag t
  | .column _ f => .column (swappedF_refl f)
  | .table t => .table t
  | .aliased n a => .aliased n a
  | .nilQb => .nilQb
  | .qb r => .qb r
  | .custom p => .custom (swappedCode_refl p)
theorem swappedF_refl : ∀ f, SwappedF E f f
  | .mk _ _ fs _ _ => .mk (swappedL_refl fs)
theorem swappedL_refl : ∀ bs, SwappedL E bs bs
  | [] => .nil
  | b :: bs => .cons (swapped_refl b) (swappedL_refl bs)
theorem swappedCode_refl : ∀ p, SwappedCode E p p
  | .ret s => .ret s
  | .fail e => .fail e
  | .panic m b => .panic m b
  | .commit v k => .commit v fun t => swappedCode_refl (k t)
  | .args k => .args fun vs => swappedCode_refl (k vs)
  | .build b k => .build (swapped_refl b) fun r => swappedCode_refl (k r)
  | .buildWith fm b k => .buildWith (swappedFuncs_refl fm) (swapped_refl b) fun r => swappedCode_refl (k r)
  | .query style b k => .query style (swapped_refl b) fun r => swappedCode_refl (k r)
theorem swappedFunc_refl : ∀ f, SwappedFunc E f f
  | .notFunc => .notFunc
  | .func ins v outs body => .func ins v outs (swappedBody_refl body)
theorem swappedBody_refl : ∀ b, SwappedBody E b b
  | .builtin b => .builtin b
  | .custom p => .custom fun vs => swappedCode_refl (p vs)
theorem swappedEntry_refl : ∀ e : Str × FuncVal, SwappedFunc E e.2 e.2
  | (_, f) => swappedFunc_refl f
theorem swappedFuncs_refl : ∀ fs, SwappedFuncs E fs fs
  | [] => .nil
  | (n, f) :: fs => .cons (swappedEntry_refl (n, f)) (swappedFuncs_refl fs)
end

theorem swappedL_pointwise {bs cs : List Builder} : SwappedL E bs cs ↔ Pointwise (Swapped E) bs cs := by
  constructor
  · intro h
    induction bs generalizing cs with
    | nil => cases h; exact .nil
    | cons b bs ih => cases h with | cons h hs => exact .cons h (ih hs)
  · intro h
    induction h with
    | nil => exact .nil
    | cons h _ ih => exact .cons h ih

end

/-! ## Dependencies -/

mutual
theorem extractB_eq : ∀ (b : Builder) (acc : List Str),
    extractB b acc = if noNil b = true then some ((tableRefs b).foldl (fun a t => collectTable t a) acc) else none
  | .nil, acc => by simp [extractB, noNil, tableRefs]
  | .nilFrag, acc => by simp [extractB, noNil]
  | .frag (.mk _ _ fs _ _), acc => by rw [extractB, noNil, tableRefs]; exact extractL_eq fs acc
  | .nilColumn, acc => by simp [extractB, noNil, tableRefs]
  | .columnNilFrag t, acc => by
    by_cases h : t = [] <;> simp [extractB, noNil, tableRefs, h]
  | .column t (.mk _ _ fs _ _), acc => by
    rw [extractB, noNil, tableRefs]
    by_cases h : t = []
    · simp only [h, if_true, ne_eq, not_true_eq_false, if_false]; exact extractL_eq fs acc
    · simp [h]
  | .table t, acc => by simp [extractB, noNil, tableRefs]
  | .aliased n a, acc => by simp [extractB, noNil, tableRefs]
  | .nilQb, acc => by simp [extractB, noNil, tableRefs]
  | .qb _, acc => by simp [extractB, noNil, tableRefs]
  | .custom _, acc => by simp [extractB, noNil, tableRefs]
theorem extractL_eq : ∀ (bs : List Builder) (acc : List Str),
    extractL bs acc = if noNilL bs = true then some ((tableRefsL bs).foldl (fun a t => collectTable t a) acc) else none
  | [], acc => by simp [extractL, noNilL, tableRefsL]
  | b :: bs, acc => by
    rw [extractL, noNilL, tableRefsL, extractB_eq b acc]
    cases noNil b with
    | false => simp
    | true =>
      simp only [if_true, Bool.true_and, List.foldl_append]
      exact extractL_eq bs _
end

section
variable {E : Builder → Builder → Prop} (hE : ∀ b c, E b c → tableRefs b = tableRefs c ∧ noNil b = noNil c)
include hE

mutual
theorem swapped_refs : ∀ (b c : Builder), Swapped E b c → tableRefs b = tableRefs c ∧ noNil b = noNil c
  | .frag (.mk _ _ fs _ _), c, h => by
    cases h with
    | swap h => exact hE _ _ h
    | frag h =>
      cases h with
      | mk h => rw [tableRefs, tableRefs, noNil, noNil]; exact swappedL_refs _ _ h
  | .column _ (.mk _ _ fs _ _), c, h => by
    cases h with
    | swap h => exact hE _ _ h
    | column h =>
      cases h with
      | mk h =>
        obtain ⟨h1, h2⟩ := swappedL_refs _ _ h
        rw [tableRefs, tableRefs, noNil, noNil, h1, h2]
        exact ⟨rfl, rfl⟩
  | .table _, c, h => by cases h with | swap h => exact hE _ _ h | _ => exact ⟨rfl, rfl⟩
  | .aliased _ _, c, h => by cases h with | swap h => exact hE _ _ h | _ => exact ⟨rfl, rfl⟩
  | .nil, c, h => by cases h with | swap h => exact hE _ _ h | _ => exact ⟨rfl, rfl⟩
  | .nilFrag, c, h => by cases h with | swap h => exact hE _ _ h | _ => exact ⟨rfl, rfl⟩
  | .nilColumn, c, h => by cases h with | swap h => exact hE _ _ h | _ => exact ⟨rfl, rfl⟩
  | .columnNilFrag _, c, h => by cases h with | swap h => exact hE _ _ h | _ => exact ⟨rfl, rfl⟩
  | .nilQb, c, h => by cases h with | swap h => exact hE _ _ h | _ => exact ⟨rfl, rfl⟩
  | .qb _, c, h => by cases h with | swap h => exact hE _ _ h | _ => exact ⟨rfl, rfl⟩
  | .custom _, c, h => by
    cases h with
    | swap h => exact hE _ _ h
    | custom _ => exact ⟨by rw [tableRefs, tableRefs] <;> simp, by rw [noNil, noNil] <;> simp⟩
theorem swappedL_refs : ∀ (bs cs : List Builder), SwappedL E bs cs → tableRefsL bs = tableRefsL cs ∧ noNilL bs = noNilL cs
  | [], cs, h => by cases h; exact ⟨rfl, rfl⟩
  | b :: bs, cs, h => by
    cases h with
    | cons h hs =>
      obtain ⟨h1, h2⟩ := swapped_refs _ _ h
      obtain ⟨h3, h4⟩ := swappedL_refs _ _ hs
      rw [tableRefsL, tableRefsL, noNilL, noNilL, h1, h2, h3, h4]
      exact ⟨rfl, rfl⟩
end

theorem extractTables_swapped {bs cs : List Builder} (h : Pointwise (Swapped E) bs cs) :
    extractTables bs = extractTables cs := by
  unfold extractTables
  obtain ⟨h1, h2⟩ := swappedL_refs hE _ _ (swappedL_pointwise.2 h)
  rw [extractL_eq, extractL_eq, h1, h2]
end

/-! ## Query builders -/

/-- … CTEs -/
def CteSwap (E : Builder → Builder → Prop) (c c' : Cte) : Prop :=
  c.name = c'.name ∧ c.deps = c'.deps ∧ Swapped E c.builder c'.builder

/-- … rows of the FROM clause -/
def RowSwap (E : Builder → Builder → Prop) (t t' : FromTable) : Prop :=
  t.names = t'.names ∧ t.optional = t'.optional ∧ SwappedOpt E t.fragment t'.fragment

/-- … ordering expressions -/
def OrderSwap (E : Builder → Builder → Prop) (o o' : OrderItem) : Prop := o.order = o'.order ∧ Swapped E o.column o'.column

/-- Two query builders that are equal except for replaced builders. -/
structure QBSwap (E : Builder → Builder → Prop) (b b' : QB) : Prop where
  ctes : Pointwise (CteSwap E) b.ctes b'.ctes
  cells : Pointwise (RowSwap E) b.cells b'.cells
  tables : b.tables = b'.tables
  tablesDict : b.tablesDict = b'.tablesDict
  selects : SwappedF E b.selects b'.selects
  touches : SwappedF E b.touches b'.touches
  conditions : SwappedF E b.conditions b'.conditions
  orders : Pointwise (OrderSwap E) b.orders b'.orders
  groupbys : SwappedF E b.groupbys b'.groupbys
  distinct : b.distinct = b'.distinct
  limit : b.limit = b'.limit
  offset : b.offset = b'.offset
  unions : SwappedL E b.unions b'.unions
  errors : b.errors = b'.errors
  debug : b.debug = b'.debug

section
variable {E : Builder → Builder → Prop} (hE : ∀ b c, E b c → tableRefs b = tableRefs c ∧ noNil b = noNil c)
  {b b' : QB} (h : QBSwap E b b')
include h

theorem QBSwap.cell (ptr : Nat) : RowSwap E (b.cell ptr) (b'.cell ptr) := by
  unfold QB.cell
  rw [List.getD_eq_getElem?_getD, List.getD_eq_getElem?_getD]
  rcases h.cells.get ptr with ⟨h1, h2⟩ | ⟨x, y, h1, h2, h3⟩
  · rw [h1, h2]; exact ⟨rfl, rfl, .none⟩
  · rw [h1, h2]; exact h3

theorem QBSwap.tableList : Pointwise (RowSwap E) b.tableList b'.tableList := by
  unfold QB.tableList
  rw [h.tables]
  exact (Spec.Pointwise.refl (R := Eq) fun _ _ => rfl).map fun a c e => by subst e; exact QBSwap.cell h a

theorem QBSwap.cteGet (name : Str) : (b.cteGet name = none ∧ b'.cteGet name = none) ∨
    ∃ x y, b.cteGet name = some x ∧ b'.cteGet name = some y ∧ CteSwap E x y :=
  h.ctes.reverse.find fun a c hac => by rw [hac.1]

theorem QBSwap.depFuel : b.depFuel = b'.depFuel := by
  unfold QB.depFuel
  rw [h.tablesDict, h.ctes.length]

include hE in
theorem QBSwap.depsFromTable (n : Nat) : b.depsFromTable n = b'.depsFromTable n := by
  induction n with
  | zero => rfl
  | succ n ih =>
    funext dep t
    unfold QB.depsFromTable
    unfold QB.dictGet
    rw [h.tablesDict]
    cases (b'.tablesDict.find? fun p => p.1 = t).map (·.2) with
    | none => rfl
    | some ptr =>
      dsimp only
      obtain ⟨h1, -, h3⟩ := QBSwap.cell h ptr
      rw [h1, ih]
      revert h3
      generalize (b.cell ptr).fragment = x
      generalize (b'.cell ptr).fragment = y
      intro h3
      cases h3 with
      | none => rfl
      | some hf =>
        dsimp only
        rw [extractTables_swapped hE (.cons (.frag hf) .nil)]

theorem QBSwap.depsFromCte (n : Nat) : ∀ deps c c', CteSwap E c c' → b.depsFromCte n deps c = b'.depsFromCte n deps c' := by
  induction n with
  | zero => intros; rfl
  | succ n ih =>
    intro deps c c' hc
    unfold QB.depsFromCte
    rw [hc.1, hc.2.1]
    split
    · rfl
    · refine foldOut_pointwise ?_ ih _
      exact (Spec.Pointwise.refl (R := Eq) fun _ _ => rfl).filterMap fun a c e => by subst e; exact QBSwap.cteGet h a

theorem QBSwap.depRoots : Pointwise (Swapped E) b.depRoots b'.depRoots := by
  have hf : ∀ {f g : Fragment}, SwappedF E f g → Swapped E (.frag f) (.frag g) := fun h => .frag h
  unfold QB.depRoots
  exact Spec.Pointwise.append (.cons (hf h.selects) (.cons (hf h.touches) (.cons (hf h.conditions) (.cons (hf h.groupbys) .nil))))
    (h.orders.map fun _ _ h => h.2)

include hE in
theorem QBSwap.deps : b.collectDependencies = b'.collectDependencies := by
  unfold QB.collectDependencies
  rw [extractTables_swapped hE (QBSwap.depRoots h), QBSwap.depsFromTable hE h, QBSwap.depFuel h]
  have ht := QBSwap.tableList h
  have hm : ∀ deps, b.markCtes deps b.tableList = b'.markCtes deps b'.tableList := by
    intro deps
    unfold QB.markCtes
    refine foldOut_pointwise ht ?_ _
    intro deps x y hxy
    rw [h.distinct, hxy.1, hxy.2.1]
    split
    · rfl
    · rcases QBSwap.cteGet h y.names.name with ⟨h1, h2⟩ | ⟨c, c', h1, h2, h3⟩
      · rw [h1, h2]
      · rw [h1, h2]
        dsimp only
        rw [QBSwap.depFuel h]
        exact QBSwap.depsFromCte h _ _ _ _ h3
  cases extractTables b'.depRoots with
  | ok tables =>
    dsimp only
    cases hx : b.tableList with
    | nil =>
      rw [hx] at ht
      cases hy : b'.tableList with
      | nil => rfl
      | cons => rw [hy] at ht; cases ht
    | cons m ms =>
      rw [hx] at ht
      cases hy : b'.tableList with
      | nil => rw [hy] at ht; cases ht
      | cons m' ms' =>
        rw [hy] at ht
        cases ht with
        | cons h1 h2 =>
          dsimp only
          rw [h1.1]
          cases foldOut (b'.depsFromTable b'.depFuel) [m'.names] tables with
          | ok deps =>
            dsimp only
            rw [← hx, ← hy]; exact hm deps
          | _ => rfl
  | _ => rfl


end

section
variable {E : Builder → Builder → Prop}

theorem swappedF_withFragments {f g : Fragment} (h : SwappedF E f g) {bs cs : List Builder} (hb : SwappedL E bs cs) :
    SwappedF E (f.withFragments bs) (g.withFragments cs) := by
  cases h; exact .mk hb

theorem swappedF_appendFragments {f g : Fragment} (h : SwappedF E f g) {bs cs : List Builder} (hb : SwappedL E bs cs) :
    SwappedF E (f.appendFragments bs) (g.appendFragments cs) := by
  cases h with
  | mk h => exact .mk (swappedL_pointwise.2 ((swappedL_pointwise.1 h).append (swappedL_pointwise.1 hb)))

theorem swappedF_withPrefix {f g : Fragment} (h : SwappedF E f g) (p : Str) : SwappedF E (f.withPrefix p) (g.withPrefix p) := by
  cases h with
  | mk h => exact .mk h

theorem swappedOpt_refl (f : Option Fragment) : SwappedOpt E f f := by
  cases f with
  | none => exact .none
  | some f => exact .some (swappedF_refl f)

theorem qbSwap_refl (b : QB) : QBSwap E b b :=
  ⟨.refl fun _ _ => ⟨rfl, rfl, swapped_refl _⟩, .refl fun _ _ => ⟨rfl, rfl, swappedOpt_refl _⟩, rfl, rfl, swappedF_refl _,
    swappedF_refl _, swappedF_refl _, .refl fun _ _ => ⟨rfl, swapped_refl _⟩, swappedF_refl _, rfl, rfl, rfl, swappedL_refl _,
    rfl, rfl⟩

variable {b b' : QB} (h : QBSwap E b b')
include h

theorem where_swap {f g : Option Fragment} (hf : SwappedOpt E f g) : QBSwap E (b.where_ f) (b'.where_ g) := by
  cases hf with
  | none => exact h
  | some hf => exact ⟨h.ctes, h.cells, h.tables, h.tablesDict, h.selects, h.touches,
      swappedF_appendFragments h.conditions (.cons (.frag hf) .nil), h.orders, h.groupbys, h.distinct, h.limit,
      h.offset, h.unions, h.errors, h.debug⟩

theorem pushError_swap (e : Err) : QBSwap E (b.pushError e) (b'.pushError e) :=
  ⟨h.ctes, h.cells, h.tables, h.tablesDict, h.selects, h.touches, h.conditions, h.orders, h.groupbys, h.distinct,
    h.limit, h.offset, h.unions, by show b.errors ++ [e] = b'.errors ++ [e]; rw [h.errors], h.debug⟩

theorem whereInOp_swap (op : Str) {c c' : Builder} (hc : Swapped E c c') {l : Val} {d : QB}
    (hd : b.whereInOp op c l = .ok d) : ∃ d', b'.whereInOp op c' l = .ok d' ∧ QBSwap E d d' := by
  unfold QB.whereInOp at hd ⊢
  cases hl : argsFlatted [l] with
  | ok vs =>
    rw [hl] at hd
    cases hd
    exact ⟨_, rfl, where_swap h (.some (.mk (.cons hc .nil)))⟩
  | _ => rw [hl] at hd; cases hd

theorem from_swap (t : TableAliased) : QBSwap E (b.from_ t) (b'.from_ t) := by
  unfold QB.from_
  split
  · exact pushError_swap h _
  · have hl := h.cells.length
    refine ⟨h.ctes, h.cells.append (.cons ⟨rfl, rfl, ?_⟩ .nil), ?_, ?_, h.selects, h.touches, h.conditions, h.orders,
      h.groupbys, h.distinct, h.limit, h.offset, h.unions, h.errors, h.debug⟩
    · exact .some (.mk .nil)
    · dsimp only; rw [h.tables, hl]
    · dsimp only; rw [h.tablesDict, hl]

omit h in
theorem join_swap1 {b b' : QB} (h : QBSwap E b b') (t : TableAliased) {cell cell' : FromTable} (hc : RowSwap E cell cell') :
    QBSwap E
      (match b.dictGet t.appliedName with
      | some ptr => { b with cells := b.cells.set ptr cell }
      | none => { b with cells := b.cells ++ [cell], tables := b.tables ++ [b.cells.length], tablesDict := (t.appliedName, b.cells.length) :: b.tablesDict })
      (match b'.dictGet t.appliedName with
      | some ptr => { b' with cells := b'.cells.set ptr cell' }
      | none => { b' with cells := b'.cells ++ [cell'], tables := b'.tables ++ [b'.cells.length], tablesDict := (t.appliedName, b'.cells.length) :: b'.tablesDict }) := by
  unfold QB.dictGet
  rw [h.tablesDict, h.cells.length, h.tables]
  split
  · exact ⟨h.ctes, pointwise_set h.cells hc _, rfl, rfl, h.selects, h.touches, h.conditions, h.orders,
      h.groupbys, h.distinct, h.limit, h.offset, h.unions, h.errors, h.debug⟩
  · exact ⟨h.ctes, h.cells.append (.cons hc .nil), rfl, rfl, h.selects, h.touches, h.conditions, h.orders,
      h.groupbys, h.distinct, h.limit, h.offset, h.unions, h.errors, h.debug⟩

theorem join_swap (kind : Str) (t : TableAliased) {on on' : Option Fragment} (ho : SwappedOpt E on on') (opt : Bool) {d : QB}
    (hd : b.join kind t on opt = .ok d) : ∃ d', b'.join kind t on' opt = .ok d' ∧ QBSwap E d d' := by
  unfold QB.join at hd ⊢
  split at hd
  · rename_i ht
    rw [if_pos ht]
    cases hd
    exact ⟨_, rfl, pushError_swap h _⟩
  · rename_i ht
    rw [if_neg ht]
    cases ho with
    | none => cases hd
    | @some f g ho =>
      have h0 : QBSwap E
          (if b.tables.length = 0 then { b with cells := b.cells ++ [⟨⟨[], []⟩, none, false⟩], tables := b.tables ++ [b.cells.length] } else b)
          (if b'.tables.length = 0 then { b' with cells := b'.cells ++ [⟨⟨[], []⟩, none, false⟩], tables := b'.tables ++ [b'.cells.length] } else b') := by
        rw [h.tables]
        split
        · exact ⟨h.ctes, h.cells.append (.cons ⟨rfl, rfl, .none⟩ .nil),
            by dsimp only; rw [h.cells.length], h.tablesDict, h.selects, h.touches, h.conditions, h.orders,
            h.groupbys, h.distinct, h.limit, h.offset, h.unions, h.errors, h.debug⟩
        · exact h
      dsimp only at hd ⊢
      revert h0 hd
      generalize (if b.tables.length = 0 then { b with cells := b.cells ++ [⟨⟨[], []⟩, none, false⟩], tables := b.tables ++ [b.cells.length] } else b) = b1
      generalize (if b'.tables.length = 0 then { b' with cells := b'.cells ++ [⟨⟨[], []⟩, none, false⟩], tables := b'.tables ++ [b'.cells.length] } else b') = b1'
      intro hd h0
      have hj := join_swap1 h0 t
        (cell := { names := t, fragment := some (.Ff (kind ++ lit " " ++ QB.tableAndAlias t ++ lit " #f1") [.frag (f.withPrefix (lit "ON"))]), optional := opt })
        (cell' := { names := t, fragment := some (.Ff (kind ++ lit " " ++ QB.tableAndAlias t ++ lit " #f1") [.frag (g.withPrefix (lit "ON"))]), optional := opt })
        ⟨rfl, rfl, .some (.mk (.cons (.frag (swappedF_withPrefix ho _)) .nil))⟩
      revert hd hj
      have hg : b1.dictGet t.appliedName = b1'.dictGet t.appliedName := by
        unfold QB.dictGet; rw [h0.tablesDict]
      rw [hg]
      cases b1'.dictGet t.appliedName with
      | none => intro hd hj; cases hd; exact ⟨_, rfl, hj⟩
      | some ptr => intro hd hj; cases hd; exact ⟨_, rfl, hj⟩

theorem apply_swap {c c' : Call} (hc : SwappedCall E c c') {d : QB} (hd : c.apply b = .ok d) :
    ∃ d', c'.apply b' = .ok d' ∧ QBSwap E d d' := by
  have hsel : ∀ {cs cs' : List Builder} {d : QB}, SwappedL E cs cs' → Call.apply b (.select cs) = .ok d →
      ∃ d', Call.apply b' (.select cs') = .ok d' ∧ QBSwap E d d' := by
    intro cs cs' d hc hd
    cases hd
    refine ⟨_, rfl, ?_⟩
    unfold QB.select
    rw [(swappedL_pointwise.1 hc).length]
    split
    · exact h
    · exact ⟨h.ctes, h.cells, h.tables, h.tablesDict, swappedF_withFragments h.selects hc, h.touches, h.conditions,
        h.orders, h.groupbys, h.distinct, h.limit, h.offset, h.unions, h.errors, h.debug⟩
  have hgroup : ∀ {cs cs' : List Builder} {d : QB}, SwappedL E cs cs' → Call.apply b (.groupBy cs) = .ok d →
      ∃ d', Call.apply b' (.groupBy cs') = .ok d' ∧ QBSwap E d d' := by
    intro cs cs' d hc hd
    cases hd
    exact ⟨_, rfl, ⟨h.ctes, h.cells, h.tables, h.tablesDict, h.selects, h.touches, h.conditions,
      h.orders, swappedF_appendFragments h.groupbys hc, h.distinct, h.limit, h.offset, h.unions, h.errors, h.debug⟩⟩
  have horder : ∀ {c c' : Builder} {o : Nat} {d : QB}, Swapped E c c' → Call.apply b (.orderBy c o) = .ok d →
      ∃ d', Call.apply b' (.orderBy c' o) = .ok d' ∧ QBSwap E d d' := by
    intro c c' o d hc hd
    cases hd
    exact ⟨_, rfl, ⟨h.ctes, h.cells, h.tables, h.tablesDict, h.selects, h.touches, h.conditions,
      h.orders.append (.cons ⟨rfl, hc⟩ .nil), h.groupbys, h.distinct, h.limit, h.offset, h.unions, h.errors, h.debug⟩⟩
  have hunion : ∀ {cs cs' : List Builder} {d : QB}, SwappedL E cs cs' → Call.apply b (.union cs) = .ok d →
      ∃ d', Call.apply b' (.union cs') = .ok d' ∧ QBSwap E d d' := by
    intro cs cs' d hc hd
    cases hd
    exact ⟨_, rfl, ⟨h.ctes, h.cells, h.tables, h.tablesDict, h.selects, h.touches, h.conditions,
      h.orders, h.groupbys, h.distinct, h.limit, h.offset,
      swappedL_pointwise.2 ((swappedL_pointwise.1 h.unions).append (swappedL_pointwise.1 hc)), h.errors, h.debug⟩⟩
  have hwith : ∀ {c c' : Builder} {n : Str} {ds : List Str} {d : QB}, Swapped E c c' → Call.apply b (.with_ n c ds) = .ok d →
      ∃ d', Call.apply b' (.with_ n c' ds) = .ok d' ∧ QBSwap E d d' := by
    intro c c' n ds d hc hd
    cases hd
    exact ⟨_, rfl, ⟨h.ctes.append (.cons ⟨rfl, rfl, hc⟩ .nil), h.cells, h.tables, h.tablesDict,
      h.selects, h.touches, h.conditions, h.orders, h.groupbys, h.distinct, h.limit, h.offset, h.unions, h.errors, h.debug⟩⟩
  have hwhere : ∀ {f f' : Option Fragment} {d : QB}, SwappedOpt E f f' → Call.apply b (.where_ f) = .ok d →
      ∃ d', Call.apply b' (.where_ f') = .ok d' ∧ QBSwap E d d' := by
    intro f f' d hc hd
    cases hd
    exact ⟨_, rfl, where_swap h hc⟩
  have hwhere2 : ∀ {c c' : Builder} {op : Str} {v : Val} {d : QB}, Swapped E c c' → Call.apply b (.where2 c op v) = .ok d →
      ∃ d', Call.apply b' (.where2 c' op v) = .ok d' ∧ QBSwap E d d' := by
    intro c c' op v d hc hd
    cases hd
    exact ⟨_, rfl, ⟨h.ctes, h.cells, h.tables, h.tablesDict, h.selects, h.touches,
      swappedF_appendFragments h.conditions (.cons (.frag (.mk (.cons hc .nil))) .nil), h.orders, h.groupbys, h.distinct, h.limit,
      h.offset, h.unions, h.errors, h.debug⟩⟩
  cases hc with
  | select hc => exact hsel hc hd
  | groupBy hc => exact hgroup hc hd
  | orderBy _ hc => exact horder hc hd
  | union hc => exact hunion hc hd
  | with_ _ _ hc => exact hwith hc hd
  | where_ hc => exact hwhere hc hd
  | where2 _ _ hc => exact hwhere2 hc hd
  | whereIn _ hc => exact whereInOp_swap h _ hc hd
  | whereNotIn _ hc => exact whereInOp_swap h _ hc hd
  | innerJoin _ hc => exact join_swap h _ _ hc _ hd
  | leftJoin _ hc => exact join_swap h _ _ hc _ hd
  | leftJoinOptional _ hc => exact join_swap h _ _ hc _ hd
  | rightJoin _ hc => exact join_swap h _ _ hc _ hd
  | fullJoin _ hc => exact join_swap h _ _ hc _ hd
  | same c =>
    cases c with
    | select cs => exact hsel (swappedL_refl _) hd
    | groupBy cs => exact hgroup (swappedL_refl _) hd
    | orderBy c o => exact horder (swapped_refl _) hd
    | union bs => exact hunion (swappedL_refl _) hd
    | with_ n b ds => exact hwith (swapped_refl _) hd
    | where_ f => exact hwhere (swappedOpt_refl _) hd
    | where2 c op v => exact hwhere2 (swapped_refl _) hd
    | whereIn c l => exact whereInOp_swap h _ (swapped_refl _) hd
    | whereNotIn c l => exact whereInOp_swap h _ (swapped_refl _) hd
    | from_ t => cases hd; exact ⟨_, rfl, from_swap h _⟩
    | innerJoin t on => exact join_swap h _ _ (swappedOpt_refl _) _ hd
    | leftJoin t on => exact join_swap h _ _ (swappedOpt_refl _) _ hd
    | leftJoinOptional t on => exact join_swap h _ _ (swappedOpt_refl _) _ hd
    | rightJoin t on => exact join_swap h _ _ (swappedOpt_refl _) _ hd
    | fullJoin t on => exact join_swap h _ _ (swappedOpt_refl _) _ hd
    | crossJoin t => exact join_swap h (lit "CROSS JOIN") t .none false hd
    | distinct =>
      cases hd
      exact ⟨_, rfl, ⟨h.ctes, h.cells, h.tables, h.tablesDict, h.selects, h.touches, h.conditions,
        h.orders, h.groupbys, rfl, h.limit, h.offset, h.unions, h.errors, h.debug⟩⟩
    | debug =>
      cases hd
      exact ⟨_, rfl, ⟨h.ctes, h.cells, h.tables, h.tablesDict, h.selects, h.touches, h.conditions,
        h.orders, h.groupbys, h.distinct, h.limit, h.offset, h.unions, h.errors, rfl⟩⟩
    | limit n =>
      cases hd
      refine ⟨_, rfl, ?_⟩
      unfold QB.setLimit
      split
      · exact ⟨h.ctes, h.cells, h.tables, h.tablesDict, h.selects, h.touches, h.conditions,
          h.orders, h.groupbys, h.distinct, rfl, h.offset, h.unions, h.errors, h.debug⟩
      · exact h
    | offset n =>
      cases hd
      refine ⟨_, rfl, ?_⟩
      unfold QB.setOffset
      split
      · exact ⟨h.ctes, h.cells, h.tables, h.tablesDict, h.selects, h.touches, h.conditions,
          h.orders, h.groupbys, h.distinct, h.limit, rfl, h.unions, h.errors, h.debug⟩
      · exact h

theorem runCalls_swap {cs cs' : List Call} (hc : Pointwise (SwappedCall E) cs cs') {d : QB} (hd : runCalls b cs = .ok d) :
    ∃ d', runCalls b' cs' = .ok d' ∧ QBSwap E d d' := by
  induction hc generalizing b b' with
  | nil => cases hd; exact ⟨_, rfl, h⟩
  | @cons c c' cs cs' h1 _ ih =>
    unfold runCalls at hd ⊢
    cases ha : c.apply b with
    | ok d1 =>
      obtain ⟨d1', h2, h3⟩ := apply_swap h h1 ha
      rw [ha] at hd
      rw [h2]
      exact ih h3 hd
    | _ => rw [ha] at hd; cases hd

end

end Sqlf

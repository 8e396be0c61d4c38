import Verif.Proofs.NoHash
import Verif.Proofs.Needed
import Verif.Proofs.SameCalls
import Verif.Spec.Complete
/-!
# Builds of query builders that do not panic
-/

namespace Sqlf

open Spec

/-! ## rows of the FROM clause -/

/-- Every table of the builder was given by a call, or is the placeholder of the main table. -/
def CellsFrom (cs : List Call) (b : QB) : Prop :=
  ∀ x ∈ b.cells, x = blankRow ∨ ∃ c ∈ cs, gives c = some x

theorem putRow_cells {b : QB} {n : Str} {r x : FromTable} (h : x ∈ (putRow b n r).cells) : x ∈ b.cells ∨ x = r := by
  unfold putRow at h
  split at h
  · exact List.mem_or_eq_of_mem_set h
  · simpa using h

theorem ensureMain_cells {b : QB} {x : FromTable} (h : x ∈ (ensureMain b).cells) : x ∈ b.cells ∨ x = blankRow := by
  unfold ensureMain at h
  split at h
  · simpa using h
  · exact .inl h

theorem step_cells {b b' : QB} {c : Call} (h : TableStep b b' c) {x : FromTable} (hx : x ∈ b'.cells) :
    x ∈ b.cells ∨ x = blankRow ∨ gives c = some x := by
  cases h with
  | none hg h1 h2 h3 => rw [h1] at hx; exact .inl hx
  | from_ t ht hc h' =>
    rw [h', from_eq ht] at hx
    simp only [List.mem_append, List.mem_singleton] at hx
    rcases hx with hx | rfl
    · exact .inl hx
    · exact .inr (.inr (by rw [hc]; simp [gives, ht]))
  | join t k on opt ht hc hg h' =>
    rw [h'] at hx
    rcases putRow_cells hx with hx | rfl
    · rcases ensureMain_cells hx with hx | hx
      · exact .inl hx
      · exact .inr (.inl hx)
    · exact .inr (.inr hg)

theorem calls_cells {b b' : QB} {cs0 cs : List Call} (hb : CellsFrom cs0 b) (h : runCalls b cs = .ok b') :
    CellsFrom (cs0 ++ cs) b' := by
  induction cs generalizing b cs0 with
  | nil => cases h; simpa using hb
  | cons c cs ih =>
    obtain ⟨b1, h1, h2⟩ := calls_cons h
    have : CellsFrom (cs0 ++ [c]) b1 := by
      intro x hx
      rcases step_cells (table_step h1) hx with h3 | h3 | h3
      · rcases hb x h3 with h4 | ⟨c', h4, h5⟩
        · exact .inl h4
        · exact .inr ⟨c', List.mem_append_left _ h4, h5⟩
      · exact .inl h3
      · exact .inr ⟨c, by simp, h3⟩
    have := ih this h2
    rwa [List.append_assoc] at this

theorem step_tables {b b' : QB} {c : Call} (h : TableStep b b' c) (hn : b.tables ≠ [] ∨ ∃ r, gives c = some r) :
    b'.tables ≠ [] := by
  cases h with
  | none hg h1 h2 h3 =>
    rw [h2]
    rcases hn with hn | ⟨r, hr⟩
    · exact hn
    · rw [hg] at hr; cases hr
  | from_ t ht hc h' =>
    rw [h', from_eq ht]
    dsimp only
    split
    · simp
    · rename_i h0
      intro e
      have := congrArg List.length e
      simp at this
      exact h0 (by simp [this])
  | join t k on opt ht hc hg h' =>
    rw [h']
    have h1 : (ensureMain b).tables ≠ [] := by
      unfold ensureMain
      split
      · simp
      · rename_i h0; intro e; exact h0 (by simp [e])
    unfold putRow
    split
    · exact h1
    · simp

theorem calls_tables_ne {b b' : QB} {cs : List Call} (h : runCalls b cs = .ok b')
    (hn : b.tables ≠ [] ∨ ∃ c ∈ cs, ∃ r, gives c = some r) : b'.tables ≠ [] := by
  induction cs generalizing b with
  | nil =>
    cases h
    rcases hn with hn | ⟨c, hc, _⟩
    · exact hn
    · cases hc
  | cons c cs ih =>
    obtain ⟨b1, h1, h2⟩ := calls_cons h
    refine ih h2 ?_
    rcases hn with hn | ⟨c', hc, r, hr⟩
    · exact .inl (step_tables (table_step h1) (.inl hn))
    · rcases List.mem_cons.1 hc with rfl | hc
      · exact .inl (step_tables (table_step h1) (.inr ⟨r, hr⟩))
      · exact .inr ⟨c', hc, r, hr⟩

/-! ## query builders made by complete calls -/

/-- Made by calls that specify a query completely; then grown. -/
def GoodQB (L : GoLib) (n : Nat) (b : QB) : Prop :=
  ∃ cs b0, runCalls QB.new cs = .ok b0 ∧ Grown b0 b ∧ Complete L n cs

theorem GoodQB.grown {L : GoLib} {n : Nat} {b b' : QB} (h : GoodQB L n b) (hg : Grown b b') : GoodQB L n b' := by
  obtain ⟨cs, b0, h1, h2, h3⟩ := h
  exact ⟨cs, b0, h1, h2.trans hg, h3⟩

theorem cell_mem (b : QB) (p : Nat) : b.cell p ∈ b.cells ∨ b.cell p = blankRow := by
  unfold QB.cell
  rw [List.getD_eq_getElem?_getD]
  cases h : b.cells[p]? with
  | none => exact .inr rfl
  | some x => exact .inl (List.mem_of_getElem? h)

theorem good_row {L : GoLib} {cs : List Call} {b0 b : QB} (h1 : runCalls QB.new cs = .ok b0) (h2 : Grown b0 b)
    {x : FromTable} (hx : x ∈ b.tableList) : x = blankRow ∨ ∃ c ∈ cs, gives c = some x := by
  unfold QB.tableList at hx
  obtain ⟨p, _, rfl⟩ := List.mem_map.1 hx
  rcases cell_mem b p with h | h
  · rw [h2.cells] at h
    have := calls_cells (cs0 := []) (b := QB.new) (by intro x hx; simp [QB.new] at hx) h1
    exact this _ h
  · exact .inl h

theorem noNilL_append (l l' : List Builder) : noNilL (l ++ l') = (noNilL l && noNilL l') := by
  induction l with
  | nil => simp [noNilL]
  | cons b l ih => simp [noNilL, ih, Bool.and_assoc]

theorem noNilL_iff {l : List Builder} : noNilL l = true ↔ ∀ b ∈ l, noNil b = true := by
  induction l with
  | nil => simp [noNilL]
  | cons b l ih => simp [noNilL, ih]

theorem good_roots {cs : List Call} {b : QB} (h : MadeBy cs b) (hc : noNilL (expressionsOf cs) = true) :
    noNilL b.depRoots = true := by
  obtain ⟨p, hs⟩ := h.selects
  obtain ⟨ts, ht, ht'⟩ := h.touches
  unfold expressionsOf at hc
  simp only [noNilL_append, Bool.and_eq_true] at hc
  obtain ⟨⟨⟨h1, h2⟩, h3⟩, h4⟩ := hc
  unfold QB.depRoots
  rw [hs, ht, h.conditions, h.groupbys, h.orders, noNilL_append]
  simp only [noNilL, noNil, Bool.and_true, Bool.and_eq_true]
  refine ⟨⟨h1, ?_, h2, h3⟩, h4⟩
  rw [noNilL_iff] at h4 ⊢
  intro t htm
  obtain ⟨_, o, ho, i, rfl⟩ := ht' t htm
  simp only [Fragment.Ff, noNil, noNilL, Bool.and_true]
  exact h4 o.column (List.mem_map.2 ⟨o, ho, rfl⟩)

/-! ## dependencies -/

theorem foldOut_noPanic {f : α → β → Out α} (h : ∀ a b p, f a b ≠ .panic p) (a : α) (l : List β) (p : Panic) :
    foldOut f a l ≠ .panic p := by
  induction l generalizing a with
  | nil => simp [foldOut]
  | cons x l ih =>
    unfold foldOut
    cases hx : f a x with
    | ok a' => exact ih a'
    | err e => simp
    | panic q => exact absurd hx (h a x q)
    | oof => simp

theorem depsFromCte_noPanic (b : QB) (n : Nat) (deps : Deps) (c : Cte) (p : Panic) : b.depsFromCte n deps c ≠ .panic p := by
  induction n generalizing deps c p with
  | zero => simp [QB.depsFromCte]
  | succ n ih =>
    unfold QB.depsFromCte
    split
    · simp
    · exact foldOut_noPanic (fun a b p => ih a b p) _ _ p

theorem depsFromTable_noPanic {b : QB} (h : ∀ t r, resolve b t = some r → noNil (rowBuilder r) = true ∧ r.fragment.isSome = true)
    (n : Nat) (deps : Deps) (t : Str) (p : Panic) : b.depsFromTable n deps t ≠ .panic p := by
  induction n generalizing deps t p with
  | zero => simp [QB.depsFromTable]
  | succ n ih =>
    unfold QB.depsFromTable
    cases hd : b.dictGet t with
    | none => simp
    | some ptr =>
      dsimp only
      split
      · simp
      · obtain ⟨h1, h2⟩ := h t (b.cell ptr) (by unfold resolve; rw [hd]; rfl)
        cases hf : (b.cell ptr).fragment with
        | none => rw [hf] at h2; cases h2
        | some f =>
          dsimp only
          unfold rowBuilder at h1
          rw [hf] at h1
          obtain ⟨ts, h3, _⟩ := extractTables_of (bs := [.frag f]) (by simpa [noNilL] using h1)
          rw [h3]
          exact foldOut_noPanic (fun a b p => ih a b p) _ _ p

theorem gives_fragment {c : Call} {r : FromTable} (h : gives c = some r) : r.fragment.isSome = true := by
  rcases call_cases c with ⟨t, rfl⟩ | ⟨⟨t, k, on, opt⟩, hj⟩ | ⟨h1, h2⟩
  · simp only [gives] at h
    split at h
    · cases h
    · cases h; rfl
  · rw [gives_join hj] at h
    cases on with
    | none => cases h
    | some on =>
      simp only [Option.bind_some] at h
      split at h
      · cases h
      · cases h; rfl
  · rw [gives_other h1 h2] at h; cases h

theorem good_deps {L : GoLib} {n : Nat} {b : QB} (h : GoodQB L n b) (p : Panic) : b.collectDependencies ≠ .panic p := by
  obtain ⟨cs, b0, h1, h2, h3⟩ := h
  have hm := madeBy_of_base h1 h2
  obtain ⟨ts, h4, _⟩ := extractTables_of (good_roots hm h3.columns)
  unfold QB.collectDependencies
  rw [h4]
  dsimp only
  cases hl : b.tableList with
  | nil =>
    have := calls_tables_ne h1 (.inr h3.table)
    rw [h2.tableList] at hl
    unfold QB.tableList at hl
    exact absurd (List.map_eq_nil_iff.1 hl) this
  | cons main rest =>
    dsimp only
    have hres : ∀ t r, resolve b t = some r → noNil (rowBuilder r) = true ∧ r.fragment.isSome = true := by
      intro t r hr
      rw [h2.resolve, calls_resolve dictOk_new h1] at hr
      have : rowOf t cs = some r := by
        cases hrow : rowOf t cs with
        | none => rw [hrow] at hr; simp [resolve, QB.dictGet, QB.new] at hr
        | some r' => rw [hrow] at hr; exact hr
      rw [rowOf_gives] at this
      obtain ⟨c, hc, hcr⟩ := List.mem_filterMap.1 (lastNamed_some this).1
      exact ⟨h3.conditions c hc r hcr, gives_fragment hcr⟩
    cases hf : foldOut (b.depsFromTable b.depFuel) [main.names] ts with
    | ok deps =>
      dsimp only
      unfold QB.markCtes
      refine foldOut_noPanic (fun a t q => ?_) _ _ p
      split
      · simp
      · split
        · exact depsFromCte_noPanic b _ _ _ _
        · simp
    | err e => simp
    | panic q => exact absurd hf (foldOut_noPanic (fun a t q => depsFromTable_noPanic hres _ _ _ _) _ _ q)
    | oof => simp

/-! ## clauses -/

/-- No panic from states that satisfy the invariant. -/
def NoPan (I : St → Prop) (m : M α) : Prop := ∀ s, I s → ∀ p s', m s ≠ (.panic p, s')

theorem NoPan.bind {I : St → Prop} {m : M α} {k : α → M β} (h : NoPan I m)
    (hI : ∀ s, I s → I (m s).2) (hk : ∀ a, NoPan I (k a)) : NoPan I (M.bind m k) := by
  intro s hs p s' hp
  rcases bind_panic hp with h1 | ⟨a, s1, h1, h2⟩
  · exact h s hs p s' h1
  · refine hk a s1 ?_ p s' h2
    have := hI s hs
    rw [h1] at this
    exact this

theorem noPan_pure (I : St → Prop) (a : α) : NoPan I (.pure a : M α) := by
  intro s _ p s' h; simp [M.pure] at h

theorem noPan_err (I : St → Prop) (e : Err) : NoPan I (.err e : M α) := by
  intro s _ p s' h; simp [M.err] at h

theorem NoPan.wrapErr {I : St → Prop} {m : M α} (h : NoPan I m) (w : Str) : NoPan I (.wrapErr w m) :=
  fun s hs p s' hp => h s hs p s' (wrapErr_panic hp)

theorem NoPan.collect {I : St → Prop} {f : α → M (Option Str)} {l : List α} (h : ∀ a ∈ l, NoPan I (f a))
    (hI : ∀ a s, I s → I (f a s).2) : NoPan I (collectM f l) := by
  induction l with
  | nil => exact noPan_pure _ _
  | cons a l ih =>
    have hI' : ∀ (l : List α) s, I s → I (collectM f l s).2 := by
      intro l
      induction l with
      | nil => intro s hs; exact hs
      | cons a l ih2 =>
        intro s hs
        unfold collectM M.bind
        have h1 := hI a s hs
        rcases hm : f a s with ⟨o, s1⟩
        rw [hm] at h1
        cases o with
        | ok o =>
          dsimp only
          have h2 := ih2 s1 h1
          rcases hm2 : collectM f l s1 with ⟨o2, s2⟩
          rw [hm2] at h2
          cases o2 <;> exact h2
        | err e => exact h1
        | panic p => exact h1
        | oof => exact h1
    exact NoPan.bind (h a List.mem_cons_self) (hI a) fun o =>
      NoPan.bind (ih fun b hb => h b (List.mem_cons_of_mem _ hb)) (hI' l) fun l' => noPan_pure _ _

/-- The list clauses do not panic. -/
theorem list_noPan {L : GoLib} {n m : Nat} {ctx : Ctx} (I : St → Prop) {f : Fragment}
    (h : f.raw = joinRaw ", " ∨ f.raw = joinRaw " AND ") : NoPan I (buildFragment L (run L n) m ctx f) := by
  intro s _ p s' hp
  obtain ⟨es, s1, h1, h2⟩ := buildFragment_panic hp
  obtain ⟨e, he, s2, _, h4⟩ := buildClause_panic h2
  have hes : ∃ sep, es = [.call (lit "join") [.str (lit "#" ++ lit "fragment"), .str sep]] := by
    rcases h with h | h
    · rw [h, (parse_joinRaw L).1] at h1; cases h1; exact ⟨_, rfl⟩
    · rw [h, (parse_joinRaw L).2] at h1; cases h1; exact ⟨_, rfl⟩
  obtain ⟨sep, rfl⟩ := hes
  rw [List.mem_singleton] at he
  subst he
  rcases evalExpr_panic (ctx := ctx.withFragment f) (fr := ⟨f.args, f.frags⟩) rfl h4 with
    ⟨_, ⟨b, i, h5⟩, _⟩ | ⟨_, name, as, g, h5, _, k, a, h6, h7, _⟩
  · cases h5
  · cases h5
    match k with
    | 0 => simp at h6; subst h6; simp at h7
    | 1 => simp at h6; subst h6; simp at h7
    | k + 2 => simp at h6

theorem joinRow_hashTail {t : TableAliased} {k : Str} (hk : 0x23 ∉ k) (h1 : 0x23 ∉ t.name) (h2 : 0x23 ∉ t.alias) :
    HashTail (k ++ lit " " ++ tableText t ++ lit " #f1") ∧ HashTail (tableText t) := by
  have ht : 0x23 ∉ tableText t := by
    unfold tableText
    split
    · exact h1
    · simp only [List.mem_append, not_or]
      exact ⟨⟨h1, by decide⟩, h2⟩
  refine ⟨?_, hashTail_of_not_mem ht⟩
  rw [show lit " #f1" = lit " " ++ lit "#f1" from by decide, ← List.append_assoc]
  apply hashTail_append
  simp only [List.mem_append, not_or]
  exact ⟨⟨⟨hk, by decide⟩, ht⟩, by decide⟩

theorem gives_raw {c : Call} {r : FromTable} (h : gives c = some r) (h1 : 0x23 ∉ r.names.name) (h2 : 0x23 ∉ r.names.alias) :
    ∃ f, r.fragment = some f ∧ f.args = [] ∧ HashTail f.raw := by
  rcases call_cases c with ⟨t, rfl⟩ | ⟨⟨t, k, on, opt⟩, hj⟩ | ⟨h3, h4⟩
  · simp only [gives] at h
    split at h
    · cases h
    · cases h
      exact ⟨_, rfl, rfl, (joinRow_hashTail (k := []) (by simp) h1 h2).2⟩
  · rw [gives_join hj] at h
    cases on with
    | none => cases h
    | some on =>
      simp only [Option.bind_some] at h
      split at h
      · cases h
      · cases h
        refine ⟨_, rfl, rfl, (joinRow_hashTail ?_ h1 h2).1⟩
        cases c <;> simp [joinOf] at hj <;> (obtain ⟨_, rfl, _⟩ := hj; decide)
  · rw [gives_other h3 h4] at h; cases h

/-- The rows of the FROM clause do not panic. -/
theorem row_noPan {L : GoLib} {n m : Nat} {ctx : Ctx} (hb : BuiltIn L ctx (lit "f")) (I : St → Prop) {f : Fragment}
    (ha : f.args = []) (hr : HashTail f.raw) : NoPan I (buildFragment L (run L n) m ctx f) := by
  intro s _ p s' hp
  obtain ⟨es, s1, h1, h2⟩ := buildFragment_panic hp
  obtain ⟨e, he, s2, _, h4⟩ := buildClause_panic h2
  rcases evalExpr_panic (ctx := ctx.withFragment f) (fr := ⟨f.args, f.frags⟩) rfl h4 with
    ⟨_, _, _, v, hv, _⟩ | ⟨_, name, as, g, rfl, hg, k, a, h6, _, h8⟩
  · rw [ha] at hv; cases hv
  · obtain ⟨rfl, rfl⟩ := parse_onlyF1 hr h1 name as he
    rw [builtIn_fn (builtIn_withFragment f hb)] at hg
    obtain ⟨b, hb', _⟩ := rootCtx_index (name := lit "f") (by decide)
    rw [hb'] at hg
    cases hg
    match k with
    | 0 => exact h8 ⟨_, _, rfl⟩
    | k + 1 => simp at h6

/-! ## queries -/

/-- The first `n` query builders are good. -/
def GoodHeap (L : GoLib) (n : Nat) (s : St) : Prop := ∀ r, r < n → ∃ b, s.heap[r]? = some b ∧ GoodQB L n b

theorem GoodHeap.grown {L : GoLib} {n : Nat} {s s' : St} (h : GoodHeap L n s) (hg : HeapGrown s s') : GoodHeap L n s' := by
  intro r hr
  obtain ⟨b, h1, h2⟩ := h r hr
  obtain ⟨b', h3, h4⟩ := hg r b h1
  exact ⟨b', h3, h2.grown h4⟩

theorem GoodHeap.eff {L : GoLib} {n : Nat} {s : St} {m : M α} (h : GoodHeap L n s) (hm : MEff HeapGrown m) :
    GoodHeap L n (m s).2 := h.grown (hm.out s)

theorem getQB_noPan {L : GoLib} {n r : Nat} (hr : r < n) {k : QB → M α} (hk : ∀ b, GoodQB L n b → NoPan (GoodHeap L n) (k b)) :
    NoPan (GoodHeap L n) (M.bind (getQB r) k) := by
  intro s hs p s' hp
  obtain ⟨b, h1, h2⟩ := hs r hr
  have : getQB r s = (.ok b, s) := by unfold getQB; rw [h1]
  rw [bind_of_ok this] at hp
  exact hk b h2 s hs p s' hp

theorem part_noPan {L : GoLib} {n m : Nat} {b : Builder}
    (ih : ∀ r, r < n → NoPan (GoodHeap L n) (run L m rootCtx (.build (.qb r)))) (h : SafePart L n b) :
    NoPan (GoodHeap L n) (run L m rootCtx (.build b)) := by
  rcases h with ⟨r, hr, rfl⟩ | h
  · exact ih r hr
  · intro s _ p s' hp
    exact h rootCtx (newContext_eq L) s p s' (evals_of_run (t := .build b) hp (by simp))

theorem query_noPan {L : GoLib} {n m r : Nat} (hr : r < n)
    (ih : ∀ r, r < n → NoPan (GoodHeap L n) (run L m rootCtx (.build (.qb r)))) :
    NoPan (GoodHeap L n) (buildInternal L (run L m) m rootCtx r) := by
  have hrun : RecEff HeapGrown (run L m) := run_eff heapGrown_effRel L m
  have hB := heapGrown_effRel.toBaseRel
  have hfr : ∀ ctx f, MEff HeapGrown (buildFragment L (run L m) m ctx f) := fun ctx f =>
    buildFragment_eff heapGrown_effRel hrun L m ctx f
  have hbl : ∀ ctx b, MEff HeapGrown (run L m ctx (.build b)) := fun ctx b => hrun ctx _
  have hf : BuiltIn L rootCtx (lit "f") := ⟨rootCtx, newContext_eq L, rfl⟩
  unfold buildInternal
  refine getQB_noPan hr fun b hb => ?_
  by_cases he : b.errors.length ≠ 0
  · rw [if_pos he]; exact noPan_err _ _
  rw [if_neg he]
  refine NoPan.bind ?_ (fun s hs => hs) fun dep => ?_
  · intro s _ p s' hp
    simp only [M.ofOut, Prod.mk.injEq] at hp
    exact good_deps hb p hp.1
  refine NoPan.bind ?_ (fun s hs => hs.eff (buildCTEs_eff hB hbl ..)) fun sq => ?_
  · unfold buildCTEs
    refine NoPan.bind (NoPan.collect (fun c hc => ?_) fun c s hs => ?_) (fun s hs => ?_) fun _ => noPan_pure _ _
    · split
      · exact noPan_pure _ _
      · refine NoPan.bind (NoPan.wrapErr (part_noPan ih ?_) _) (fun s hs => ?_) fun _ => noPan_pure _ _
        · obtain ⟨cs, b0, h1, h2, h3⟩ := hb
          rw [(madeBy_of_base h1 h2).ctes] at hc
          exact h3.ctes c hc
        · exact hs.eff (MEff.wrapErr _ (hbl _ _))
    · exact hs.eff (m := if (⟨c.name, []⟩ : TableAliased) ∉ dep then _ else _)
        (ite_eff (eff_const hB _) (MEff.bind hB (MEff.wrapErr _ (hbl _ _)) fun _ => eff_const hB _))
    · refine hs.eff (collectM_eff hB (fun c => ?_) _)
      exact ite_eff (eff_const hB _) (MEff.bind hB (MEff.wrapErr _ (hbl _ _)) fun _ => eff_const hB _)
  refine getQB_noPan hr fun b hb => ?_
  refine NoPan.bind ?_ (fun s hs => hs.eff (buildFrom_eff hB hfr ..)) fun from_ => ?_
  · have hrow : ∀ t : FromTable, MEff HeapGrown (match t.fragment with
        | some f => buildFragment L (run L m) m rootCtx f
        | none => .pure []) := by
      intro t
      cases t.fragment with
      | none => exact eff_const hB _
      | some f => exact hfr _ _
    unfold buildFrom
    refine NoPan.bind (NoPan.collect (fun t ht => ?_) fun c s hs => ?_) (fun s hs => ?_) fun _ => noPan_pure _ _
    · split
      · exact noPan_pure _ _
      · refine NoPan.bind (NoPan.wrapErr ?_ _) (fun s hs => ?_) fun _ => noPan_pure _ _
        · obtain ⟨cs, b0, h1, h2, h3⟩ := hb
          rcases good_row (L := L) h1 h2 ht with rfl | ⟨c, hc, hg⟩
          · exact noPan_pure _ _
          · obtain ⟨h4, h5⟩ := h3.names c hc t hg
            obtain ⟨f, h6, h7, h8⟩ := gives_raw hg h4 h5
            rw [h6]
            exact row_noPan hf _ h7 h8
        · exact hs.eff (MEff.wrapErr _ (hrow t))
    · exact hs.eff (m := if b.distinct ∧ c.optional ∧ c.names ∉ dep then _ else _)
        (ite_eff (eff_const hB _) (MEff.bind hB (MEff.wrapErr _ (hrow _)) fun _ => eff_const hB _))
    · exact hs.eff (collectM_eff hB (fun c => ite_eff (eff_const hB _)
        (MEff.bind hB (MEff.wrapErr _ (hrow _)) fun _ => eff_const hB _)) _)
  refine getQB_noPan hr fun b hb => ?_
  refine NoPan.bind ?_ (fun s hs => hs.eff (hfr _ _)) fun where_ => ?_
  · obtain ⟨cs, b0, h1, h2, h3⟩ := hb
    exact list_noPan _ (.inr (by rw [(madeBy_of_base h1 h2).conditions]; rfl))
  refine getQB_noPan hr fun b hb => ?_
  refine NoPan.bind ?_ (fun s hs => hs.eff (hfr _ _)) fun groupby => ?_
  · obtain ⟨cs, b0, h1, h2, h3⟩ := hb
    exact list_noPan _ (.inl (by rw [(madeBy_of_base h1 h2).groupbys]; rfl))
  refine NoPan.bind ?_ (fun s hs => hs.eff (buildOrders_eff hB hfr ..)) fun order => ?_
  · unfold buildOrders
    refine getQB_noPan hr fun b hb => ?_
    dsimp only
    intro s hs p s' hp
    obtain ⟨b', h1, -⟩ := hs r hr
    have := fun g => show modifyQB r g s = (.ok (), setQB s r (g b')) by unfold modifyQB; rw [h1]; rfl
    rw [bind_of_ok (this _)] at hp
    exact list_noPan (fun _ => True) (.inl rfl) _ trivial p s' hp
  refine getQB_noPan hr fun b hb => ?_
  dsimp only
  refine NoPan.bind ?_ (fun s hs => hs.eff (buildSelects_eff hB hfr ..)) fun sel => ?_
  · unfold buildSelects
    refine NoPan.bind ?_ (fun s hs => ?_) fun _ => ?_
    · intro s hs p s' hp
      obtain ⟨b', h1, -⟩ := hs r hr
      unfold modifyQB at hp
      rw [h1] at hp
      simp at hp
    · obtain ⟨b', h1, -⟩ := hs r hr
      have := fun g => show modifyQB r g s = (.ok (), setQB s r (g b')) by unfold modifyQB; rw [h1]; rfl
      rw [this _]
      exact hs.grown (heapGrown_set h1 (grown_selects b' _))
    refine getQB_noPan hr fun b hb => ?_
    refine NoPan.bind ?_ (fun s hs => hs.eff (hfr _ _)) fun sel => ?_
    · obtain ⟨cs, b0, h1, h2, h3⟩ := hb
      obtain ⟨p, hp⟩ := (madeBy_of_base h1 h2).selects
      exact list_noPan _ (.inl (by rw [hp]; rfl))
    refine getQB_noPan hr fun b hb => ?_
    refine NoPan.bind ?_ (fun s hs => hs.eff (hfr _ _)) fun touches => ?_
    · obtain ⟨cs, b0, h1, h2, h3⟩ := hb
      obtain ⟨p, hp, _⟩ := (madeBy_of_base h1 h2).touches
      exact list_noPan _ (.inl (by rw [hp]; rfl))
    split
    · exact noPan_err _ _
    · exact noPan_pure _ _
  refine getQB_noPan hr fun b hb => ?_
  refine NoPan.bind ?_ (fun s hs => hs.eff (m := if b.unions.length > 0 then _ else _) (ite_eff (MEff.bind hB (buildUnion_eff hB hbl ..)
    fun _ => eff_const hB _) (eff_const hB _))) fun query => ?_
  · split
    · refine NoPan.bind ?_ (fun s hs => hs.eff (buildUnion_eff hB hbl ..)) fun _ => noPan_pure _ _
      unfold buildUnion
      refine NoPan.bind (NoPan.collect (fun u hu => ?_) fun c s hs => ?_) (fun s hs => ?_) fun _ => noPan_pure _ _
      · refine NoPan.bind (part_noPan ih ?_) (fun s hs => hs.eff (hbl _ _)) fun _ => noPan_pure _ _
        obtain ⟨cs, b0, h1, h2, h3⟩ := hb
        rw [(madeBy_of_base h1 h2).unions] at hu
        exact h3.unions u hu
      · exact hs.eff (MEff.bind hB (hbl _ _) fun _ => eff_const hB _)
      · exact hs.eff (collectM_eff hB (fun c => MEff.bind hB (hbl _ _) fun _ => eff_const hB _) _)
    · exact noPan_pure _ _
  refine getQB_noPan hr fun b hb => ?_
  have hd : b.debug = false := by
    obtain ⟨cs, b0, h1, h2, h3⟩ := hb
    rw [h2.debug, calls_debug h1, h3.quiet]
    rfl
  rw [hd]
  exact NoPan.bind (noPan_pure _ _) (fun s hs => hs) fun _ => noPan_pure _ _

theorem run_noPan (L : GoLib) (n m : Nat) : ∀ r, r < n → NoPan (GoodHeap L n) (run L m rootCtx (.build (.qb r))) := by
  induction m with
  | zero => intro r hr s hs p s' hp; simp [run] at hp
  | succ m ih => intro r hr; exact query_noPan hr ih

end Sqlf

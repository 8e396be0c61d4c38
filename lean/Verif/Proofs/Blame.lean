import Verif.Spec.Blame
import Verif.Proofs.JoinEv
import Verif.Proofs.Mention
import Verif.Proofs.Query
/-!
# Why a build fails
-/

namespace Sqlf

open Spec

/-! ## Inversion -/

theorem bind_err_inv {m : M α} {k : α → M β} {s s' : St} {e : Err} (h : M.bind m k s = (.err e, s')) :
    m s = (.err e, s') ∨ ∃ a s1, m s = (.ok a, s1) ∧ k a s1 = (.err e, s') := by
  unfold M.bind at h
  rcases hm : m s with ⟨o, s1⟩
  rw [hm] at h
  cases o with
  | ok a => exact .inr ⟨a, s1, rfl, h⟩
  | err e' => left; simpa using h
  | panic p => simp at h
  | oof => simp at h

theorem wrapErr_err_inv {m : M α} {w : Str} {s s' : St} {e : Err} (h : M.wrapErr w m s = (.err e, s')) :
    ∃ e', e = .wrap w e' ∧ m s = (.err e', s') := by
  unfold M.wrapErr at h
  rcases hm : m s with ⟨o, s1⟩
  rw [hm] at h
  cases o with
  | err e' =>
    simp only [Prod.mk.injEq, Out.err.injEq] at h
    exact ⟨e', h.1.symm, by rw [h.2]⟩
  | ok a => simp at h
  | panic p => simp at h
  | oof => simp at h

theorem safeCall_err_inv {m : M Str} {s s' : St} {e : Err} (h : safeCall m s = (.err e, s')) :
    m s = (.err e, s') ∨ ∃ p, m s = (.panic p, s') ∧ e = p.toErr := by
  unfold safeCall at h
  rcases hm : m s with ⟨o, s1⟩
  rw [hm] at h
  cases o with
  | err e' => left; simpa using h
  | panic p =>
    simp only [Prod.mk.injEq, Out.err.injEq] at h
    exact .inr ⟨p, by rw [h.2], h.1.symm⟩
  | ok a => simp at h
  | oof => simp at h

theorem clause_err_inv {L : GoLib} {rec : Rec} {m : Nat} {ctx : Ctx} {es : List Expr} {s s' : St} {e : Err}
    (h : buildClause L rec m ctx es s = (.err e, s')) :
    ∃ x ∈ es, ∃ s1, evalExpr L rec m ctx x s1 = (.err e, s') := by
  induction es generalizing s with
  | nil => simp [buildClause, M.pure] at h
  | cons x es ih =>
    rcases bind_err_inv h with h | ⟨t, s1, -, h⟩
    · exact ⟨x, by simp, s, h⟩
    · rcases bind_err_inv h with h | ⟨u, s2, -, h⟩
      · obtain ⟨y, hy, h⟩ := ih h
        exact ⟨y, by simp [hy], h⟩
      · simp [M.pure] at h

theorem paramType_of_get {f : FuncInfo} {n k : Nat} {t : GoType} (hk : k < n)
    (hv : f.variadic = true → f.ins ≠ [] ∧ f.ins ≠ [.context])
    (h : (f.paramTypes n)[k]? = some t) : paramType f k = some t := by
  cases hu : paramType f k with
  | some u => rw [paramTypes_get hk h hu]
  | none =>
    exfalso
    unfold FuncInfo.paramTypes FuncInfo.inContextFirst at h
    unfold paramType at hu
    simp only [decide_eq_true_eq, List.drop_one] at h
    dsimp only at hu
    have hne : f.variadic = true → (if f.ins.head? = some .context then f.ins.tail else f.ins) ≠ [] := by
      intro h0
      obtain ⟨h1, h2⟩ := hv h0
      cases hi : f.ins with
      | nil => exact absurd hi h1
      | cons a l =>
        cases l with
        | cons b l => by_cases h3 : a = .context <;> simp [h3]
        | nil =>
          by_cases h3 : a = .context
          · rw [hi, h3] at h2; exact absurd rfl h2
          · simp [h3]
    revert h hu hne
    generalize (if f.ins.head? = some .context then f.ins.tail else f.ins) = ts
    intro hu h hne
    by_cases hva : f.variadic = true
    · rw [if_pos hva] at h
      by_cases hl : ts.length ≤ k + 1
      · rw [if_pos ⟨hva, hl⟩] at hu
        simp only [Option.map_eq_none_iff, List.getLast?_eq_none_iff] at hu
        exact hne hva hu
      · rw [if_neg (by simp [hl])] at hu
        rw [List.getElem?_append_left (by simp; omega), List.getElem?_dropLast, if_pos (by omega)] at h
        rw [h] at hu; cases hu
    · rw [if_neg hva] at h
      rw [if_neg (by simp [hva])] at hu
      rw [h] at hu; cases hu

theorem evalArgs_err_inv {ts : List GoType} {as : List CallArg} {e : Err} (h : evalArgs ts as = .err e) :
    ∃ (k : Nat) (t : GoType) (a : CallArg), ts[k]? = some t ∧ as[k]? = some a ∧ literalFits t a = false := by
  induction ts generalizing as with
  | nil => simp [evalArgs] at h
  | cons t ts ih =>
    cases as with
    | nil => simp [evalArgs] at h
    | cons a as =>
      unfold evalArgs at h
      cases he : evalArg t a with
      | ok v =>
        rw [he] at h
        dsimp only at h
        cases hr : evalArgs ts as with
        | ok vs => rw [hr] at h; cases h
        | err e1 =>
          obtain ⟨k, h1⟩ := ih (hr.trans (by rw [hr] at h; simpa using h))
          exact ⟨k + 1, h1⟩
        | panic q => rw [hr] at h; cases h
        | oof => rw [hr] at h; cases h
      | err e =>
        refine ⟨0, t, a, rfl, rfl, ?_⟩
        cases t <;> cases a <;> simp_all [evalArg, literalFits]
      | panic q => rw [he] at h; cases h
      | oof => rw [he] at h; cases h

theorem arityOk_countFits (f : FuncInfo) (hv : f.variadic = true → f.ins ≠ [] ∧ f.ins ≠ [.context]) {n : Nat}
    (h : f.arityOk n = false) : ¬ countFits f n := by
  unfold countFits paramCount
  unfold FuncInfo.arityOk FuncInfo.inContextFirst FuncInfo.nInFixed FuncInfo.nIn at h
  dsimp only at h
  by_cases hva : f.variadic = true
  · rw [if_pos hva] at h ⊢
    obtain ⟨h1, h2⟩ := hv hva
    have : 1 ≤ f.ins.length := by
      cases hi : f.ins with
      | nil => exact absurd hi h1
      | cons a l => simp
    simp only [hva, if_true, decide_eq_true_eq, decide_eq_false_iff_not] at h
    split at h
    · rename_i h3
      have : 2 ≤ f.ins.length := by
        cases hi : f.ins with
        | nil => exact absurd hi h1
        | cons a l =>
          cases l with
          | cons b l => simp
          | nil => rw [hi] at h3; simp at h3; rw [hi, h3] at h2; exact absurd rfl h2
      rw [if_pos h3]; omega
    · rename_i h3
      rw [if_neg h3]; omega
  · rw [if_neg hva] at h ⊢
    simp only [decide_eq_true_eq, decide_eq_false_iff_not] at h
    split at h
    · rename_i h3; rw [if_pos h3]; exact h
    · rename_i h3; rw [if_neg h3]; exact h

theorem evalCall_err_inv {L : GoLib} {rec : Rec} {m : Nat} {ctx : Ctx} {f : FuncInfo} {as : List CallArg} {s s' : St}
    {e : Err} (hv : f.variadic = true → f.ins ≠ [] ∧ f.ins ≠ [.context])
    (h : evalCall L rec m ctx f as s = (.err e, s')) :
    (¬ countFits f as.length ∧ e = .wrongArgCount f.name) ∨
    ((∃ (k : Nat) (t : GoType) (a : CallArg), as[k]? = some a ∧ paramType f k = some t ∧ literalFits t a = false) ∧
      e = .argType f.name) ∨
    (∃ e', e = .wrap f.name e') := by
  unfold evalCall at h
  split at h
  · rename_i h0
    simp only [Bool.not_eq_true', M.err, Prod.mk.injEq, Out.err.injEq] at h0 h
    exact .inl ⟨arityOk_countFits f hv h0, h.1.symm⟩
  · dsimp only at h
    cases ha : evalArgs (f.paramTypes as.length) as with
    | err e =>
      rw [ha] at h
      simp only [M.err, Prod.mk.injEq, Out.err.injEq] at h
      obtain ⟨k, t, a, h1, h2, h3⟩ := evalArgs_err_inv ha
      exact .inr (.inl ⟨⟨k, t, a, h2, paramType_of_get (List.getElem?_eq_some_iff.1 h2).1 hv h1, h3⟩, h.1.symm⟩)
    | panic p => rw [ha] at h; simp [M.panic] at h
    | oof => rw [ha] at h; simp at h
    | ok vs =>
      rw [ha] at h
      obtain ⟨e', h1, -⟩ := wrapErr_err_inv h
      exact .inr (.inr ⟨e', h1⟩)

/-! ## Query builders during a build -/

/-- The query builders have grown, and there are as many as before. -/
def GrownQBs (s s' : St) : Prop := HeapGrown s s' ∧ s'.heap.length = s.heap.length

theorem grownQBs_effRel : EffRel GrownQBs where
  refl s := ⟨heapGrown_effRel.refl s, rfl⟩
  trans h h' := ⟨heapGrown_effRel.trans h.1 h'.1, h'.2.trans h.2⟩
  commit s v p st h := ⟨heapGrown_effRel.commit s v p st h, rfl⟩
  markA s k := ⟨heapGrown_effRel.markA s k, rfl⟩
  markF s k := ⟨heapGrown_effRel.markF s k, rfl⟩
  fresh s s' h := h
  own _ s s' h := h
  orders s r b h := ⟨heapGrown_effRel.orders s r b h, by simp [setQB]⟩
  selects s r b p h := ⟨heapGrown_effRel.selects s r b p h, by simp [setQB]⟩
  log s r b l h h' := ⟨heapGrown_effRel.log s r b l h h', rfl⟩

theorem Grown.eq {b b' : QB} (h : Grown b b') : ∃ keyword ts es,
    b' = { b with selects := b.selects.withPrefix keyword, touches := b.touches.appendFragments ts, errors := es } := by
  obtain ⟨p, hp⟩ := h.selects
  obtain ⟨ts, ht, -⟩ := h.touches
  refine ⟨p, ts, b'.errors, ?_⟩
  rcases h with ⟨h1, h2, h3, h4, -, -, h5, h6, h7, h8, h9, h10, h11, -, -, h12⟩
  rcases b with ⟨⟩
  rcases b' with ⟨⟩
  simp only at *
  subst h1 h2 h3 h4 h5 h6 h7 h8 h9 h10 h11 h12 hp ht
  rfl

theorem GrownQBs.during {s s' : St} (h : GrownQBs s s') : During s.heap s' := by
  refine ⟨h.2, fun r b b' hb hb' => ?_⟩
  obtain ⟨b1, h1, h2⟩ := h.1 r b hb
  rw [hb'] at h1
  cases h1
  exact h2.eq

theorem GrownQBs.at {s s' : St} (h : GrownQBs s s') {r : Nat} {b' : QB} (hr : s'.heap[r]? = some b') :
    ∃ b, s.heap[r]? = some b ∧ Grown b b' := by
  have hl := (List.getElem?_eq_some_iff.1 hr).1
  rw [h.2] at hl
  obtain ⟨b1, h1, h2⟩ := h.1 r _ (List.getElem?_eq_getElem hl)
  rw [hr] at h1
  cases h1
  exact ⟨_, List.getElem?_eq_getElem hl, h2⟩

theorem GrownQBs.then {s0 s s' : St} {m : M α} {o : Out α} (h : GrownQBs s0 s) (hm : MEff GrownQBs m) (he : m s = (o, s')) :
    GrownQBs s0 s' := by
  have := hm.out s
  rw [he] at this
  exact grownQBs_effRel.trans h this

theorem run_grownQBs (L : GoLib) (n : Nat) : RecEff GrownQBs (run L n) := run_eff grownQBs_effRel L n

theorem clause_err_kept {L : GoLib} {n m : Nat} {ctx : Ctx} {es : List Expr} {s0 s s' : St} {e : Err}
    (hk : GrownQBs s0 s) (h : buildClause L (run L n) m ctx es s = (.err e, s')) :
    ∃ x ∈ es, ∃ s1, GrownQBs s0 s1 ∧ evalExpr L (run L n) m ctx x s1 = (.err e, s') := by
  induction es generalizing s with
  | nil => simp [buildClause, M.pure] at h
  | cons x es ih =>
    rcases bind_err_inv h with h | ⟨t, s1, h1, h⟩
    · exact ⟨x, by simp, s, hk, h⟩
    · rcases bind_err_inv h with h | ⟨u, s2, -, h⟩
      · obtain ⟨y, hy, h⟩ := ih (hk.then (evalExpr_eff grownQBs_effRel (run_grownQBs L n) L m ctx x) h1) h
        exact ⟨y, by simp [hy], h⟩
      · simp [M.pure] at h

/-! ## What is explained by induction -/

/-- Errors with fuel `n` are explained. -/
structure Explained (L : GoLib) (n : Nat) : Prop where
  build : ∀ {ctx : Ctx} {b : Builder} {s0 s s' : St} {e : Err}, Registered L ctx → GrownQBs s0 s →
    run L n ctx (.build b) s = (.err e, s') → Explains L s0.heap ctx b e
  clause : ∀ {ctx : Ctx} {fr : Frame} {es : List Expr} {s0 s s' : St} {e : Err}, Registered L ctx → ctx.frame = some fr →
    GrownQBs s0 s → run L n ctx (.clause es) s = (.err e, s') → ∃ x ∈ es, ExplainsExpr L s0.heap ctx x e

theorem indexArg_of_arity {L : GoLib} {name : Str} {b : Builtin} {rec : Rec} {m : Nat} {ctx : Ctx} {as : List CallArg}
    {s s' : St} {w : Str} {e : Err} (h : evalCall L rec m ctx (indexInfo name b) as s = (.err (.wrap w e), s')) :
    ∃ i, indexArg L as = some i := by
  match as with
  | [] => cases congrArg Prod.fst h
  | [.num x] => exact ⟨_, rfl⟩
  | [.int x] => exact ⟨_, rfl⟩
  | [.nil] => cases congrArg Prod.fst h
  | [.bool _] => cases congrArg Prod.fst h
  | [.str _] => cases congrArg Prod.fst h
  | _ :: _ :: l =>
    have h0 : FuncInfo.arityOk (indexInfo name b) (l.length + 1 + 1) = false := by
      simp [FuncInfo.arityOk, indexInfo, FuncInfo.inContextFirst, FuncInfo.nIn]
    unfold evalCall at h
    simp only [List.length_cons, h0] at h
    cases congrArg Prod.fst h

theorem joinArgs_of_wrap {L : GoLib} {rec : Rec} {m : Nat} {ctx : Ctx} {as : List CallArg}
    {s s' : St} {w : Str} {e : Err} (h : evalCall L rec m ctx joinInfo as s = (.err (.wrap w e), s')) :
    ∃ r, joinArgs L as = .ok r := by
  match as with
  | [] => cases congrArg Prod.fst h
  | [_] => cases congrArg Prod.fst h
  | a :: b :: as =>
    have har : FuncInfo.arityOk joinInfo (a :: b :: as).length = true := by
      simp [FuncInfo.arityOk, joinInfo, FuncInfo.inContextFirst, FuncInfo.nInFixed, FuncInfo.nIn]
    have hty : FuncInfo.paramTypes joinInfo (a :: b :: as).length =
        .string 0 :: .string 0 :: List.replicate as.length (.num .int 0) := by
      simp [FuncInfo.paramTypes, joinInfo, FuncInfo.inContextFirst, GoType.elem]
    unfold evalCall at h
    rw [har, hty] at h
    simp only [Bool.not_true, Bool.false_eq_true, if_false, evalArgs] at h
    simp only [joinArgs]
    rcases evalArg_string a with ⟨v, t, h1, h2, h3, h4⟩ | ⟨h1, h2⟩ | ⟨h1, e, h2⟩
    · rw [h1]
      rw [h2] at h
      rcases evalArg_string b with ⟨w, u, h5, h6, h7, h8⟩ | ⟨h5, h6⟩ | ⟨h5, e, h6⟩
      · rw [h5]
        rw [h6] at h
        rcases evalArgs_ints L as with ⟨vs, is, h9, h10, h11, h12⟩ | ⟨h9, e, h10⟩
        · rw [h9]; exact ⟨_, rfl⟩
        · rw [h10] at h; cases congrArg Prod.fst h
      · rw [h6] at h; cases congrArg Prod.fst h
      · rw [h6] at h; cases congrArg Prod.fst h
    · rw [h2] at h; cases congrArg Prod.fst h
    · rw [h2] at h; cases congrArg Prod.fst h

theorem argBuild_err_inv {fr : Frame} {i : Int} {s s' : St} {e : Err} (h : argBuild fr i s = (.err e, s')) :
    item? i fr.args = none ∧ e = .invalidIndex i := by
  cases hi : item? i fr.args with
  | some v =>
    rw [argBuild_item hi] at h
    unfold commitArg at h
    split at h <;> cases congrArg Prod.fst h
  | none =>
    rcases position_item i fr.args with ⟨h1, -⟩ | ⟨k, v, -, -, h1, -⟩
    · unfold argBuild at h
      rw [h1] at h
      simp only [M.err, Prod.mk.injEq, Out.err.injEq] at h
      exact ⟨rfl, h.1.symm⟩
    · rw [hi] at h1; cases h1

theorem argBuild_panic_inv {fr : Frame} {i : Int} {s s' : St} {p : Panic} (h : argBuild fr i s = (.panic p, s')) :
    ∃ v, item? i fr.args = some v ∧ v.hashable = false ∧ p = .unhashableKey := by
  cases hi : item? i fr.args with
  | some v =>
    rw [argBuild_item hi] at h
    unfold commitArg at h
    dsimp only at h
    cases hc : s.store.commit v with
    | some r => rw [hc] at h; cases congrArg Prod.fst h
    | none =>
      rw [hc] at h
      simp only [Prod.mk.injEq, Out.panic.injEq] at h
      refine ⟨v, rfl, ?_, h.1.symm⟩
      unfold Store.commit at hc
      split at hc
      · split at hc
        · rename_i hh; simpa using hh
        · split at hc <;> cases hc
      · cases hc
  | none =>
    rcases position_item i fr.args with ⟨h1, -⟩ | ⟨k, v, -, -, h1, -⟩
    · unfold argBuild at h
      rw [h1] at h
      cases congrArg Prod.fst h
    · rw [hi] at h1; cases h1

theorem fragmentBuild_none {rec : Rec} {ctx : Ctx} {fr : Frame} {i : Int} (hi : item? i fr.frags = none) (s : St) :
    fragmentBuild rec ctx fr i s = (.err (.invalidIndex i), s) := by
  rcases position_item i fr.frags with ⟨h1, -⟩ | ⟨k, v, -, -, h1, -⟩
  · unfold fragmentBuild
    rw [h1]; rfl
  · rw [hi] at h1; cases h1

theorem index_err {L : GoLib} {n : Nat} (ih : Explained L n) {ctx : Ctx} {fr : Frame} {name : Str}
    (hn : isListFunc name = true) (hr : Registered L ctx) (hc : ctx.frame = some fr) (hb : BuiltIn L ctx name)
    {as : List CallArg} {s0 s s' : St} {e : Err} (hk : GrownQBs s0 s) {i : Int} (hi : indexArg L as = some i)
    (h : evalFunction L (run L n) n ctx name as s = (.err e, s')) :
    ExplainsExpr L s0.heap ctx (.call name as) e := by
  rw [evalFunction_index hc hn hb hi, bind_pure] at h
  obtain ⟨e, rfl, h'⟩ := wrapErr_err_inv h
  replace h := h'
  by_cases ha : name = lit "arg"
  · subst ha
    rw [if_pos rfl] at h
    rcases safeCall_err_inv h with h1 | ⟨p, h1, rfl⟩
    · obtain ⟨h2, rfl⟩ := argBuild_err_inv h1
      exact .noArg hc hb hi h2
    · obtain ⟨v, h2, h3, rfl⟩ := argBuild_panic_inv h1
      exact .badArg hc hb hi h2 h3
  · rw [if_neg ha] at h
    have hn' : name = lit "f" ∨ name = lit "fragment" := by
      simp only [isListFunc, Bool.or_eq_true, decide_eq_true_eq] at hn
      rcases hn with (hn | hn) | hn
      · exact absurd hn ha
      · exact .inl hn
      · exact .inr hn
    cases hit : item? i fr.frags with
    | none =>
      rcases safeCall_err_inv h with h1 | ⟨p, h1, rfl⟩
      · rw [fragmentBuild_none hit] at h1
        cases congrArg Prod.fst h1
        exact .noFragment hc hn' hb hi hit
      · rw [fragmentBuild_none hit] at h1
        cases congrArg Prod.fst h1
    | some c =>
      have hk' : GrownQBs s0 { s with usedF := (i - 1).toNat :: s.usedF } := grownQBs_effRel.trans hk (grownQBs_effRel.markF _ _)
      rcases safeCall_err_inv h with h1 | ⟨p, h1, rfl⟩
      · rw [fragmentBuild_item hit] at h1
        exact .fragment hc hn' hb hi hit hk'.during (buildsTo_of_run h1 (by simp)) (ih.build hr hk' h1)
      · rw [fragmentBuild_item hit] at h1
        exact .fragmentPanics hc hn' hb hi hit hk'.during (buildsTo_of_run h1 (by simp))

theorem joinCompatible_not_panic {L : GoLib} {n : Nat} {g : FuncInfo} {s s' : St} {p : Panic} :
    joinCompatible (run L n) g s ≠ (.panic p, s') := by
  intro h
  unfold joinCompatible at h
  by_cases hs : joinSignatureOk g = true
  · rw [hs] at h
    simp only [Bool.not_true, Bool.false_eq_true, if_false] at h
    cases n with
    | zero => cases congrArg Prod.fst h
    | succ n =>
      rcases hm : run L (n + 1) newEmptyContext.withNilFragment (.call g [.int 0])
        { s with store := .new question, usedA := [], usedF := [] } with ⟨o, s1⟩
      rw [hm] at h
      cases o with
      | ok a => cases congrArg Prod.fst h
      | err a => cases congrArg Prod.fst h
      | oof => cases congrArg Prod.fst h
      | panic q =>
        obtain ⟨-, k, a, h1, h2, h3⟩ := evalCall_panic (L := L) (rec := run L n) (m := n) hm
        cases k with
        | succ k => simp at h1
        | zero =>
          refine h3 ?_
          unfold joinSignatureOk at hs
          unfold paramType
          simp only [Bool.and_eq_true] at hs
          obtain ⟨-, hs⟩ := hs
          cases hi : g.ins with
          | nil => rw [hi] at hs; cases hs
          | cons t l =>
            cases l with
            | nil =>
              rw [hi] at hs
              dsimp only at hs
              have ht : t ≠ .context := by
                rintro rfl
                split at hs <;> simp_all [GoType.elem]
              cases hv : g.variadic with
              | true =>
                rw [hv] at hs
                cases he : t.elem <;> simp_all
              | false =>
                rw [hv] at hs
                cases t <;> simp_all
            | cons u l =>
              cases l with
              | cons v l => rw [hi] at hs; cases hs
              | nil =>
                rw [hi] at hs
                simp only [Bool.and_eq_true] at hs
                obtain ⟨hs1, hs⟩ := hs
                unfold FuncInfo.inContextFirst at hs1
                rw [hi] at hs1
                simp only [List.head?_cons, Option.some.injEq, decide_eq_true_eq] at hs1
                cases hv : g.variadic with
                | true =>
                  rw [hv] at hs
                  cases he : u.elem <;> simp_all
                | false =>
                  rw [hv] at hs
                  cases u <;> simp_all
  · rw [if_pos (by simpa using hs)] at h
    cases congrArg Prod.fst h

/-! ## `#join` -/

theorem joinCompatible_false {L : GoLib} {n : Nat} {g : FuncInfo} {s s' : St}
    (h : joinCompatible (run L n) g s = (.ok false, s')) (hs : joinSignatureOk g = true) :
    ∃ s1 s2 o, s1.heap = s.heap ∧ Evals L newEmptyContext.withNilFragment (.call g [.int 0]) s1 (o, s2) ∧
      ¬ IndexFailure o := by
  unfold joinCompatible at h
  rw [hs] at h
  simp only [Bool.not_true, Bool.false_eq_true, if_false] at h
  rcases hm : run L n newEmptyContext.withNilFragment (.call g [.int 0])
    { s with store := .new question, usedA := [], usedF := [] } with ⟨o, s1⟩
  rw [hm] at h
  refine ⟨_, s1, o, ?_, evals_of_run hm ?_, ?_⟩
  · rfl
  · rintro rfl; cases congrArg Prod.fst h
  · cases o with
    | ok a => simp [IndexFailure]
    | err e =>
      simp only [Prod.mk.injEq, Out.ok.injEq] at h
      simp [IndexFailure, h.1]
    | panic p => cases congrArg Prod.fst h
    | oof => simp [IndexFailure]

theorem joinCheck_inv {L : GoLib} {n : Nat} {ctx : Ctx} {tm : Str} {is : List Int} {est es : List Expr}
    (hp : parse L tm = .ok est) (hsub : ∀ g ∈ bareFuncs es, g ∈ bareFuncs est) {s0 s s' : St} (hk : GrownQBs s0 s)
    {o : Out Nat} (h : joinCheck (run L n) ctx es s = (o, s')) :
    (∀ p, o ≠ .panic p) ∧ (∀ e, o = .err e → ExplainsJoin L s0.heap ctx tm is e) ∧
    (o = .ok 0 → bareFuncs es = []) := by
  induction es generalizing s s' o with
  | nil =>
    simp only [joinCheck, M.pure, Prod.mk.injEq] at h
    obtain ⟨rfl, -⟩ := h
    exact ⟨by simp, by simp, fun _ => rfl⟩
  | cons x es ih =>
    cases x with
    | func name =>
      have hmem : name ∈ bareFuncs est := hsub _ (by simp [bareFuncs])
      have hsub' : ∀ g ∈ bareFuncs es, g ∈ bareFuncs est := fun g hg => hsub g (by simp [bareFuncs, hg])
      unfold joinCheck at h
      cases hf : ctx.fn name with
      | none =>
        rw [hf] at h
        simp only [M.err, Prod.mk.injEq] at h
        obtain ⟨rfl, -⟩ := h
        exact ⟨by simp, fun e he => by cases he; exact .unknown hp hmem hf, by simp⟩
      | some g =>
        rw [hf] at h
        change M.bind (joinCompatible (run L n) g) _ s = _ at h
        rcases hm : joinCompatible (run L n) g s with ⟨o1, s1⟩
        cases o1 with
        | panic p => exact absurd hm joinCompatible_not_panic
        | err e =>
          exfalso
          unfold joinCompatible at hm
          split at hm
          · cases congrArg Prod.fst hm
          · dsimp only at hm
            generalize run L n _ _ _ = r at hm
            rcases r with ⟨ro, rs⟩
            cases ro <;> cases congrArg Prod.fst hm
        | oof =>
          unfold M.bind at h
          rw [hm] at h
          simp only [Prod.mk.injEq] at h
          obtain ⟨rfl, -⟩ := h
          simp
        | ok b =>
          rw [bind_of_ok hm] at h
          have hk1 : GrownQBs s0 s1 := hk.then (joinCompatible_eff grownQBs_effRel (run_grownQBs L n) g) hm
          cases b with
          | false =>
            simp only [Bool.false_eq_true, if_false, M.err, Prod.mk.injEq] at h
            obtain ⟨rfl, -⟩ := h
            refine ⟨by simp, fun e he => ?_, by simp⟩
            cases he
            refine .incompatible hp hmem hf fun hs => ?_
            obtain ⟨s2, s3, o, h1, h2, h3⟩ := joinCompatible_false hm hs
            refine ⟨s2, s3, o, ?_, h2, h3⟩
            have := hk.during
            unfold During at this ⊢
            rw [h1]; exact this
          | true =>
            simp only [if_true] at h
            change M.bind (joinCheck (run L n) ctx es) (fun n => M.pure (n + 1)) s1 = _ at h
            rcases hc : joinCheck (run L n) ctx es s1 with ⟨o2, s2⟩
            obtain ⟨i1, i2, i3⟩ := ih hsub' hk1 hc
            unfold M.bind at h
            rw [hc] at h
            cases o2 with
            | ok k =>
              simp only [M.pure, Prod.mk.injEq] at h
              obtain ⟨rfl, -⟩ := h
              simp
            | err e =>
              simp only [Prod.mk.injEq] at h
              obtain ⟨rfl, -⟩ := h
              exact ⟨by simp, fun e he => by cases he; exact i2 e rfl, by simp⟩
            | panic p => exact absurd rfl (i1 p)
            | oof =>
              simp only [Prod.mk.injEq] at h
              obtain ⟨rfl, -⟩ := h
              simp
    | plain t => exact ih (fun g hg => hsub g hg) hk h
    | bindVar st i => exact ih (fun g hg => hsub g hg) hk h
    | call nm as => exact ih (fun g hg => hsub g hg) hk h

theorem joinLoop_inv {L : GoLib} {n : Nat} (ih : Explained L n) {ctx : Ctx} {fr : Frame} (hr : Registered L ctx)
    (hc : ctx.frame = some fr) {tm sep : Str} {is : List Int} {est : List Expr} (hp : parse L tm = .ok est)
    {from_ to : Int} {m : Nat} {i : Int} (hi : 1 ≤ i) {acc : Str} {s0 s s' : St} (hk : GrownQBs s0 s) {o : Out Str}
    (h : joinLoop (run L n) ctx est sep from_ to m i acc s = (o, s')) :
    (∀ p, o = .panic p → ExplainsJoin L s0.heap ctx tm is p.toErr) ∧
    (∀ e, o = .err e → ExplainsJoin L s0.heap ctx tm is e) := by
  induction m generalizing i acc s with
  | zero =>
    simp only [joinLoop, Prod.mk.injEq] at h
    obtain ⟨rfl, -⟩ := h
    simp
  | succ m ihm =>
    unfold joinLoop at h
    rcases hm : run L n ctx (.clause (joinInst est i)) s with ⟨o1, s1⟩
    rw [hm] at h
    have hk1 : GrownQBs s0 s1 := hk.then (run_grownQBs L n ctx _) hm
    cases o1 with
    | ok t =>
      dsimp only at h
      split at h
      · simp only [Prod.mk.injEq] at h
        obtain ⟨rfl, -⟩ := h
        simp
      · exact ihm (by omega) hk1 h
    | err e1 =>
      obtain ⟨x, hx, he⟩ := ih.clause hr hc hk hm
      rw [joinInst_eq] at hx
      have hex : ExplainsJoin L s0.heap ctx tm is e1 := .item hp hi hx he
      dsimp only at h
      split at h
      · split at h
        · simp only [Prod.mk.injEq] at h
          obtain ⟨rfl, -⟩ := h
          exact ⟨by simp, fun e he => by cases he; exact hex⟩
        · simp only [Prod.mk.injEq] at h
          obtain ⟨rfl, -⟩ := h
          simp
      · simp only [Prod.mk.injEq] at h
        obtain ⟨rfl, -⟩ := h
        exact ⟨by simp, fun e he => by cases he; exact hex⟩
    | panic p =>
      simp only [Prod.mk.injEq] at h
      obtain ⟨rfl, -⟩ := h
      refine ⟨fun q hq => ?_, by simp⟩
      cases hq
      rw [joinInst_eq] at hm
      exact .itemPanics hp hi hk.during (evals_of_run hm (by simp))
    | oof =>
      simp only [Prod.mk.injEq] at h
      obtain ⟨rfl, -⟩ := h
      simp

theorem funcJoin_inv {L : GoLib} {n : Nat} (ih : Explained L n) {ctx : Ctx} {fr : Frame} (hr : Registered L ctx)
    (hc : ctx.frame = some fr) {tm sep : Str} {is : List Int} {s0 s s' : St} (hk : GrownQBs s0 s) {o : Out Str}
    (h : funcJoin L (run L n) n ctx tm sep is s = (o, s')) :
    (∀ p, o = .panic p → ExplainsJoin L s0.heap ctx tm is p.toErr) ∧
    (∀ e, o = .err e → ExplainsJoin L s0.heap ctx tm is e) := by
  unfold funcJoin at h
  split at h
  · simp only [M.err, Prod.mk.injEq] at h
    obtain ⟨rfl, -⟩ := h
    exact ⟨by simp, fun e he => by cases he; exact .tooMany (by omega)⟩
  · dsimp only at h
    split at h
    · rename_i hlt
      simp only [M.err, Prod.mk.injEq] at h
      obtain ⟨rfl, -⟩ := h
      exact ⟨by simp, fun e he => by cases he; exact .range hlt.1 hlt.2⟩
    · cases hp : parse L tm with
      | error e =>
        rw [hp] at h
        simp only [M.err, Prod.mk.injEq] at h
        obtain ⟨rfl, -⟩ := h
        exact ⟨by simp, fun e he => by cases he; exact .template hp⟩
      | ok est =>
        rw [hp] at h
        change M.bind (joinCheck (run L n) ctx est) _ s = _ at h
        rcases hm : joinCheck (run L n) ctx est s with ⟨o1, s1⟩
        obtain ⟨i1, i2, i3⟩ := joinCheck_inv (is := is) hp (fun _ hg => hg) hk hm
        have hk1 : GrownQBs s0 s1 := hk.then (joinCheck_eff grownQBs_effRel (run_grownQBs L n) ctx est) hm
        unfold M.bind at h
        rw [hm] at h
        cases o1 with
        | panic p => exact absurd rfl (i1 p)
        | err e =>
          simp only [Prod.mk.injEq] at h
          obtain ⟨rfl, -⟩ := h
          exact ⟨by simp, fun e he => by cases he; exact i2 _ rfl⟩
        | oof =>
          simp only [Prod.mk.injEq] at h
          obtain ⟨rfl, -⟩ := h
          simp
        | ok k =>
          dsimp only at h
          by_cases h0 : k = 0
          · subst h0
            simp only [if_true, M.err, Prod.mk.injEq] at h
            obtain ⟨rfl, -⟩ := h
            exact ⟨by simp, fun e he => by cases he; exact .noFunc hp (i3 rfl)⟩
          · rw [if_neg h0] at h
            exact joinLoop_inv ih hr hc hp (by split <;> omega) hk1 h

/-! ## Expressions and fragments -/

theorem call_inv {L : GoLib} {n : Nat} (ih : Explained L n) {ctx : Ctx} {fr : Frame} (hr : Registered L ctx)
    (hc : ctx.frame = some fr) {name : Str} {as : List CallArg} {s0 s s' : St} {e : Err} (hk : GrownQBs s0 s)
    (h : evalFunction L (run L n) n ctx name as s = (.err e, s')) :
    ExplainsExpr L s0.heap ctx (.call name as) e := by
  cases hg : ctx.fn name with
  | none =>
    unfold evalFunction at h
    rw [hg] at h
    simp only [M.err, Prod.mk.injEq, Out.err.injEq] at h
    rw [← h.1]
    exact .undefined hg
  | some g =>
    obtain ⟨hn, hb, hv⟩ := hr name g hg
    have hcall : evalCall L (run L n) n ctx g as s = (.err e, s') := by
      have := h
      unfold evalFunction at this
      rw [hg] at this
      exact this
    rcases evalCall_err_inv hv hcall with ⟨h1, rfl⟩ | ⟨⟨k, t, a, h1, h2, h3⟩, rfl⟩ | ⟨e', rfl⟩
    · rw [hn]; exact .count hg h1
    · rw [hn]; exact .literal hg h1 h2 h3
    · rcases hb with hb | ⟨p, hp⟩
      · have hroot := builtIn_fn hb
        rw [hg, rootCtx_builtin] at hroot
        by_cases hl : isListFunc name = true
        · obtain ⟨b, hf, -⟩ := rootCtx_index hl
          rw [← rootCtx_builtin, hf] at hroot
          cases hroot
          obtain ⟨i, hi⟩ := indexArg_of_arity hcall
          exact index_err ih hl hr hc hb hk hi h
        · by_cases hj : name = lit "join"
          · subst hj
            have hgj : g = joinInfo := by
              rw [← rootCtx_builtin] at hroot
              exact (Option.some.inj (hroot.trans (rootCtx_builtin _)))
            subst hgj
            obtain ⟨⟨tm, sep, is⟩, hja⟩ := joinArgs_of_wrap hcall
            have h' : evalExpr L (run L n) n ctx (.call (lit "join") as) s = _ := h
            rw [evalExpr_join hb hja] at h'
            obtain ⟨e'', he, h'⟩ := wrapErr_err_inv h'
            cases he
            refine .join hb hja ?_
            rcases safeCall_err_inv h' with h1 | ⟨p, h1, rfl⟩
            · exact (funcJoin_inv ih hr hc hk h1).2 _ rfl
            · exact (funcJoin_inv ih hr hc hk h1).1 _ rfl
          · exfalso
            simp only [isListFunc, Bool.or_eq_true, decide_eq_true_eq, not_or] at hl
            rw [if_neg hl.1.1, if_neg hl.1.2, if_neg hl.2, if_neg hj] at hroot
            cases hroot
      · rw [hn]; exact .code hg hp

theorem expr_inv {L : GoLib} {n : Nat} (ih : Explained L n) {ctx : Ctx} {fr : Frame} (hr : Registered L ctx)
    (hc : ctx.frame = some fr) {x : Expr} {s0 s s' : St} {e : Err} (hk : GrownQBs s0 s)
    (h : evalExpr L (run L n) n ctx x s = (.err e, s')) : ExplainsExpr L s0.heap ctx x e := by
  cases x with
  | plain t => cases congrArg Prod.fst h
  | func name =>
    simp only [evalExpr, M.err, Prod.mk.injEq, Out.err.injEq] at h
    rw [← h.1]; exact .notCalled
  | bindVar st i =>
    simp only [evalExpr] at h
    rw [mustFragment_bind hc] at h
    rcases position_item i fr.args with ⟨h1, h2⟩ | ⟨k, v, h1, -, h3, -⟩
    · rw [h1] at h
      simp only [M.err, Prod.mk.injEq, Out.err.injEq] at h
      rw [← h.1]; exact .bindVar hc h2
    · rw [h1] at h
      dsimp only at h
      have := (argBuild_err_inv h).1
      rw [h3] at this
      cases this
  | call name as => exact call_inv ih hr hc hk h

theorem firstUnused_lt {used : List Nat} {n i : Nat} (h : firstUnused used n = some i) : i < n := by
  induction n with
  | zero => cases h
  | succ n ih =>
    unfold firstUnused at h
    cases hf : firstUnused used n with
    | some j => rw [hf] at h; cases h; exact Nat.lt_succ_of_lt (ih hf)
    | none =>
      rw [hf] at h
      dsimp only at h
      split at h
      · cases h
      · cases h; omega

theorem Spec.Registered.withFragment {L : GoLib} {ctx : Ctx} (h : Registered L ctx) (f : Fragment) :
    Registered L (ctx.withFragment f) := h

theorem fragment_inv {L : GoLib} {n : Nat} (ih : Explained L n) {ctx : Ctx} (hr : Registered L ctx)
    {f : Fragment} {s0 s s' : St} {e : Err} (hk : GrownQBs s0 s)
    (h : buildFragment L (run L n) n ctx f s = (.err e, s')) : Explains L s0.heap ctx (.frag f) e := by
  unfold buildFragment withFreshUsage at h
  dsimp only at h
  rcases hm : buildBody L (run L n) n (ctx.withFragment f) f { s with usedA := [], usedF := [] } with ⟨o, s1⟩
  rw [hm] at h
  simp only [Prod.mk.injEq] at h
  obtain ⟨rfl, -⟩ := h
  unfold buildBody at hm
  cases hp : parse L f.raw with
  | error e1 =>
    rw [hp] at hm
    simp only [M.err, Prod.mk.injEq, Out.err.injEq] at hm
    rw [← hm.1]; exact .template hp
  | ok es =>
    rw [hp] at hm
    have hk' : GrownQBs s0 { s with usedA := [], usedF := [] } := hk
    rcases bind_err_inv hm with h1 | ⟨body, s2, h1, h2⟩
    · obtain ⟨e', rfl, h2⟩ := wrapErr_err_inv h1
      obtain ⟨x, hx, s3, hk3, h3⟩ := clause_err_kept hk' h2
      exact .inside hp hx (expr_inv ih (hr.withFragment f) rfl hk3 h3)
    · unfold checkUsage at h2
      dsimp only at h2
      cases ha : firstUnused s2.usedA f.args.length with
      | some i =>
        rw [ha] at h2
        simp only [Prod.mk.injEq, Out.err.injEq] at h2
        rw [← h2.1]; refine .unused (.inl (by simp)) (fun k hk => ?_) (fun k hk => ?_)
        · simp only [Option.some.injEq] at hk
          have := firstUnused_lt ha
          omega
        · obtain ⟨m, h3, rfl⟩ := Option.map_eq_some_iff.1 hk
          have := firstUnused_lt h3
          omega
      | none =>
        rw [ha] at h2
        dsimp only at h2
        cases hb : firstUnused s2.usedF f.frags.length with
        | some i =>
          rw [hb] at h2
          simp only [Prod.mk.injEq, Out.err.injEq] at h2
          rw [← h2.1]; refine .unused (.inr (by simp)) (fun k hk => nomatch hk) (fun k hk => ?_)
          simp only [Option.some.injEq] at hk
          have := firstUnused_lt hb
          omega
        | none =>
          rw [hb] at h2
          cases congrArg Prod.fst h2

/-! ## Query builders -/

theorem collectM_err_inv {f : α → M (Option Str)} (hf : ∀ a, MEff GrownQBs (f a)) {l : List α} {s0 s s' : St} {e : Err}
    (hk : GrownQBs s0 s) (h : collectM f l s = (.err e, s')) : ∃ a ∈ l, ∃ s1, GrownQBs s0 s1 ∧ f a s1 = (.err e, s') := by
  induction l generalizing s with
  | nil => cases congrArg Prod.fst h
  | cons a l ih =>
    rcases bind_err_inv h with h1 | ⟨o, s1, h1, h2⟩
    · exact ⟨a, by simp, s, hk, h1⟩
    · rcases bind_err_inv h2 with h3 | ⟨u, s2, -, h3⟩
      · obtain ⟨b, hb, h4⟩ := ih (hk.then (hf a) h1) h3
        exact ⟨b, by simp [hb], h4⟩
      · cases congrArg Prod.fst h3

theorem foldOut_err_inv {f : α → β → Out α} {a : α} {l : List β} {e : Err} (h : foldOut f a l = .err e) :
    ∃ a' x, f a' x = .err e := by
  induction l generalizing a with
  | nil => cases h
  | cons x l ih =>
    unfold foldOut at h
    cases hf : f a x with
    | ok a' => rw [hf] at h; exact ih h
    | err e' => rw [hf] at h; cases h; exact ⟨a, x, hf⟩
    | panic p => rw [hf] at h; cases h
    | oof => rw [hf] at h; cases h

theorem extractTables_not_err {bs : List Builder} {e : Err} : extractTables bs ≠ .err e := by
  unfold extractTables
  cases extractL bs [] <;> simp

theorem depsFromTable_err {b : QB} {n : Nat} {dep : Deps} {t : Str} {e : Err} (h : b.depsFromTable n dep t = .err e) :
    ∃ t', resolve b t' = none ∧ e = .fromUndefined t' := by
  induction n generalizing dep t with
  | zero => cases h
  | succ n ih =>
    unfold QB.depsFromTable at h
    cases hd : b.dictGet t with
    | none =>
      rw [hd] at h
      cases h
      exact ⟨t, by simp [resolve, hd], rfl⟩
    | some ptr =>
      rw [hd] at h
      dsimp only at h
      split at h
      · cases h
      · cases hf : (b.cell ptr).fragment with
        | none => rw [hf] at h; cases h
        | some f =>
          rw [hf] at h
          dsimp only at h
          cases hx : extractTables [.frag f] with
          | ok fts =>
            rw [hx] at h
            obtain ⟨a', x, hx⟩ := foldOut_err_inv h
            exact ih hx
          | err e' => exact absurd hx extractTables_not_err
          | panic p => rw [hx] at h; cases h
          | oof => rw [hx] at h; cases h

theorem depsFromCte_not_err {b : QB} {n : Nat} {dep : Deps} {c : Cte} {e : Err} : b.depsFromCte n dep c ≠ .err e := by
  induction n generalizing dep c with
  | zero => simp [QB.depsFromCte]
  | succ n ih =>
    intro h
    unfold QB.depsFromCte at h
    split at h
    · cases h
    · obtain ⟨a', x, hx⟩ := foldOut_err_inv h
      exact ih hx

theorem deps_err {b : QB} {e : Err} (h : b.collectDependencies = .err e) :
    ∃ t, resolve b t = none ∧ e = .fromUndefined t := by
  unfold QB.collectDependencies at h
  cases hx : extractTables b.depRoots with
  | err e' => exact absurd hx extractTables_not_err
  | panic p => rw [hx] at h; cases h
  | oof => rw [hx] at h; cases h
  | ok ts =>
    rw [hx] at h
    dsimp only at h
    cases hl : b.tableList with
    | nil => rw [hl] at h; cases h
    | cons main rest =>
      rw [hl] at h
      dsimp only at h
      cases hf : foldOut (b.depsFromTable b.depFuel) [main.names] ts with
      | err e' =>
        rw [hf] at h
        cases h
        obtain ⟨a', x, hx⟩ := foldOut_err_inv hf
        exact depsFromTable_err hx
      | panic p => rw [hf] at h; cases h
      | oof => rw [hf] at h; cases h
      | ok deps =>
        rw [hf] at h
        exfalso
        obtain ⟨a', x, hx⟩ := foldOut_err_inv (show foldOut _ _ _ = _ from h)
        split at hx
        · cases hx
        · cases hc : b.cteGet x.names.name with
          | none => rw [hc] at hx; cases hx
          | some c => rw [hc] at hx; exact depsFromCte_not_err hx

theorem getQB_not_err {r : Nat} {s s' : St} {e : Err} : getQB r s ≠ (.err e, s') := by
  unfold getQB
  cases s.heap[r]? <;> simp

theorem modifyQB_not_err {r : Nat} {f : QB → QB} {s s' : St} {e : Err} : modifyQB r f s ≠ (.err e, s') := by
  unfold modifyQB
  cases s.heap[r]? <;> simp

theorem getQB_bind_err {r : Nat} {k : QB → M α} {s s' : St} {e : Err} (h : M.bind (getQB r) k s = (.err e, s')) :
    ∃ b, s.heap[r]? = some b ∧ k b s = (.err e, s') := by
  rcases bind_err_inv h with h1 | ⟨b, s1, h1, h2⟩
  · exact absurd h1 getQB_not_err
  · obtain ⟨h3, rfl⟩ := getQB_ok h1
    exact ⟨b, h3, h2⟩

theorem modifyQB_bind_err {r : Nat} {f : QB → QB} {k : Unit → M α} {s s' : St} {e : Err}
    (h : M.bind (modifyQB r f) k s = (.err e, s')) :
    ∃ b, s.heap[r]? = some b ∧ k () (setQB s r (f b)) = (.err e, s') := by
  rcases bind_err_inv h with h1 | ⟨u, s1, h1, h2⟩
  · exact absurd h1 modifyQB_not_err
  · obtain ⟨b, h3, rfl⟩ := modifyQB_ok h1
    exact ⟨b, h3, h2⟩

section
variable {L : GoLib} {n : Nat} (ih : Explained L n) {ctx : Ctx} (hreg : Registered L ctx) {r : Nat} {b : QB} {s0 : St}
  (hb : s0.heap[r]? = some b)
include ih hreg

theorem clauseOf_inv {f : Fragment} (hf : ClauseOf b f) {s s' : St} (hk : GrownQBs s0 s) {e : Err}
    (h : buildFragment L (run L n) n ctx f s = (.err e, s')) : ExplainsQuery L s0.heap ctx b e :=
  .clause hf hk.during (buildsTo_of_run (n := n + 1) h (by simp)) (fragment_inv ih hreg hk h)

theorem ctes_inv {b' : QB} (hg : Grown b b') {dep : Deps} {s s' : St} (hk : GrownQBs s0 s) {e : Err}
    (h : buildCTEs (run L n) ctx b' dep s = (.err e, s')) : ExplainsQuery L s0.heap ctx b e := by
  rcases bind_err_inv h with h1 | ⟨u, s1, -, h1⟩
  · obtain ⟨c, hc, s1, hk1, h2⟩ := collectM_err_inv (fun c => by
      refine ite_eff (eff_const grownQBs_effRel.toBaseRel _) ?_
      exact .bind grownQBs_effRel.toBaseRel (.wrapErr _ (run_grownQBs L n ctx _)) fun _ => eff_const grownQBs_effRel.toBaseRel _) hk h1
    split at h2
    · cases congrArg Prod.fst h2
    · rcases bind_err_inv h2 with h3 | ⟨u, s2, -, h3⟩
      · obtain ⟨e', rfl, h4⟩ := wrapErr_err_inv h3
        rw [hg.ctes] at hc
        exact .cte hc hk1.during (buildsTo_of_run h4 (by simp)) (ih.build hreg hk1 h4)
      · cases congrArg Prod.fst h3
  · cases congrArg Prod.fst h1

theorem from_inv {b' : QB} (hg : Grown b b') {dep : Deps} {s s' : St} (hk : GrownQBs s0 s) {e : Err}
    (h : buildFrom L (run L n) n ctx b' dep s = (.err e, s')) : ExplainsQuery L s0.heap ctx b e := by
  have htl : b'.tableList = b.tableList := by
    unfold QB.tableList QB.cell
    rw [hg.tables, hg.cells]
  rcases bind_err_inv h with h1 | ⟨u, s1, -, h1⟩
  · obtain ⟨t, ht, s1, hk1, h2⟩ := collectM_err_inv (fun t => by
      refine ite_eff (eff_const grownQBs_effRel.toBaseRel _) ?_
      refine .bind grownQBs_effRel.toBaseRel (.wrapErr _ ?_) fun _ => eff_const grownQBs_effRel.toBaseRel _
      cases t.fragment with
      | none => exact eff_const grownQBs_effRel.toBaseRel _
      | some f => exact buildFragment_eff grownQBs_effRel (run_grownQBs L n) L n ctx f) hk h1
    split at h2
    · cases congrArg Prod.fst h2
    · rcases bind_err_inv h2 with h3 | ⟨u, s2, -, h3⟩
      · obtain ⟨e', rfl, h4⟩ := wrapErr_err_inv h3
        rw [htl] at ht
        have hrow : rowBuilder t = match t.fragment with
          | some f => .frag f
          | none => .nilFrag := rfl
        cases hf : t.fragment with
        | none => rw [hf] at h4; cases congrArg Prod.fst h4
        | some f =>
          rw [hf] at h4 hrow
          refine .table ht hk1.during (s' := s') ?_ ?_
          · rw [hrow]; exact buildsTo_of_run (n := n + 1) h4 (by simp)
          · rw [hrow]; exact fragment_inv ih hreg hk1 h4
      · cases congrArg Prod.fst h3
  · cases congrArg Prod.fst h1

theorem union_inv {b' : QB} (hg : Grown b b') {s s' : St} (hk : GrownQBs s0 s) {e : Err}
    (h : buildUnion (run L n) ctx b'.unions s = (.err e, s')) : ExplainsQuery L s0.heap ctx b e := by
  rcases bind_err_inv h with h1 | ⟨u, s1, -, h1⟩
  · obtain ⟨u, hu, s1, hk1, h2⟩ := collectM_err_inv (fun c => by
      exact .bind grownQBs_effRel.toBaseRel (run_grownQBs L n ctx _) fun _ => eff_const grownQBs_effRel.toBaseRel _) hk h1
    rcases bind_err_inv h2 with h3 | ⟨u, s2, -, h3⟩
    · rw [hg.unions] at hu
      exact .union hu hk1.during (buildsTo_of_run h3 (by simp)) (ih.build hreg hk1 h3)
    · cases congrArg Prod.fst h3
  · cases congrArg Prod.fst h1

include hb

theorem orders_inv {s s' : St} (hk : GrownQBs s0 s) {e : Err}
    (h : buildOrders L (run L n) n ctx r s = (.err e, s')) : ExplainsQuery L s0.heap ctx b e := by
  obtain ⟨b1, h1, h2⟩ := getQB_bind_err h
  obtain ⟨b', h3, h4⟩ := modifyQB_bind_err h2
  rw [h1] at h3
  cases h3
  obtain ⟨bb, h5, hg⟩ := hk.at h1
  rw [hb] at h5
  cases h5
  have hk1 : GrownQBs s0 (setQB s r { b1 with
      touches := b1.touches.appendFragments (orderItems b1.distinct 0 b1.orders).2.1
      errors := b1.errors ++ (orderItems b1.distinct 0 b1.orders).2.2 }) :=
    grownQBs_effRel.trans hk (grownQBs_effRel.orders s r b1 h1)
  refine clauseOf_inv ih hreg ?_ hk1 h4
  rw [(orderItems_eq b1.distinct 0 b1.orders).1, hg.distinct, hg.orders]
  exact .orderBy

theorem selects_inv {s s' : St} (hk : GrownQBs s0 s) {e : Err}
    (h : buildSelects L (run L n) n ctx r s = (.err e, s')) : ExplainsQuery L s0.heap ctx b e := by
  obtain ⟨b1, h1, h2⟩ := modifyQB_bind_err h
  obtain ⟨bb, h5, hg⟩ := hk.at h1
  rw [hb] at h5
  cases h5
  obtain ⟨b2, h6, h7⟩ := getQB_bind_err h2
  rw [setQB_get h1] at h6
  cases h6
  have hk1 := grownQBs_effRel.trans hk (grownQBs_effRel.selects s r b1
    (if b1.distinct = true then lit "SELECT DISTINCT" else lit "SELECT") h1)
  have hsel : (b1.selects.withPrefix (if b1.distinct = true then lit "SELECT DISTINCT" else lit "SELECT")) =
      b.selects.withPrefix (if b1.distinct = true then lit "SELECT DISTINCT" else lit "SELECT") := by
    obtain ⟨p, hp⟩ := hg.selects
    rw [hp, withPrefix_withPrefix]
  dsimp only at h7
  rw [hsel] at h7 hk1
  generalize (if b1.distinct = true then lit "SELECT DISTINCT" else lit "SELECT") = kw at *
  have he := fun f => buildFragment_eff grownQBs_effRel (run_grownQBs L n) L n ctx f
  rcases bind_err_inv h7 with h8 | ⟨sel, s2, h8, h9⟩
  · exact clauseOf_inv ih hreg (.select _) hk1 h8
  · have hk2 := hk1.then (he _) h8
    obtain ⟨b3, h10, h11⟩ := getQB_bind_err h9
    obtain ⟨bb, h12, hg3⟩ := hk2.at h10
    rw [hb] at h12
    cases h12
    rcases bind_err_inv h11 with h13 | ⟨tch, s3, h13, h14⟩
    · obtain ⟨ts, h15, h16⟩ := hg3.touches
      rw [h15] at h13
      exact clauseOf_inv ih hreg (.touches ts h16) hk2 h13
    · split at h14
      · rename_i hs
        subst hs
        simp only [M.err, Prod.mk.injEq, Out.err.injEq] at h14
        rw [← h14.1]
        exact .noColumns hk1.during (buildsTo_of_run (n := n + 1) h8 (by simp))
      · cases congrArg Prod.fst h14

theorem query_inv {s s' : St} (hk : GrownQBs s0 s) {e : Err}
    (h : buildInternal L (run L n) n ctx r s = (.err e, s')) : ExplainsQuery L s0.heap ctx b e := by
  have hB := grownQBs_effRel.toBaseRel
  have he := fun ctx f => buildFragment_eff grownQBs_effRel (run_grownQBs L n) L n ctx f
  have hat : ∀ {s1 : St} {b1 : QB}, GrownQBs s0 s1 → s1.heap[r]? = some b1 → Grown b b1 := by
    intro s1 b1 hk1 h1
    obtain ⟨bb, h2, h3⟩ := hk1.at h1
    rw [hb] at h2
    cases h2
    exact h3
  obtain ⟨b1, h1, h⟩ := getQB_bind_err h
  have g1 := hat hk h1
  by_cases herr : b1.errors.length ≠ 0
  · rw [if_pos herr] at h
    simp only [M.err, Prod.mk.injEq, Out.err.injEq] at h
    rw [← h.1]
    exact .recorded (by simpa using herr) g1.newErrors
  rw [if_neg herr] at h
  rcases bind_err_inv h with h2 | ⟨dep, s1, h2, h⟩
  · simp only [M.ofOut, Prod.mk.injEq] at h2
    obtain ⟨t, h3, rfl⟩ := deps_err h2.1
    rw [g1.resolve] at h3
    exact .undefined h3
  simp only [M.ofOut, Prod.mk.injEq] at h2
  obtain ⟨-, rfl⟩ := h2
  rcases bind_err_inv h with h3 | ⟨sq, s2, h3, h⟩
  · exact ctes_inv ih hreg g1 hk h3
  have hk2 := hk.then (buildCTEs_eff hB (fun ctx b => run_grownQBs L n ctx (.build b)) ctx b1 dep) h3
  obtain ⟨b2, h4, h⟩ := getQB_bind_err h
  rcases bind_err_inv h with h5 | ⟨fr, s3, h5, h⟩
  · exact from_inv ih hreg (hat hk2 h4) hk2 h5
  have hk3 := hk2.then (buildFrom_eff hB he ctx b2 dep) h5
  obtain ⟨b3, h6, h⟩ := getQB_bind_err h
  rcases bind_err_inv h with h7 | ⟨wh, s4, h7, h⟩
  · rw [(hat hk3 h6).conditions] at h7
    exact clauseOf_inv ih hreg .where_ hk3 h7
  have hk4 := hk3.then (he _ _) h7
  obtain ⟨b4, h8, h⟩ := getQB_bind_err h
  rcases bind_err_inv h with h9 | ⟨gb, s5, h9, h⟩
  · rw [(hat hk4 h8).groupbys] at h9
    exact clauseOf_inv ih hreg .groupBy hk4 h9
  have hk5 := hk4.then (he _ _) h9
  rcases bind_err_inv h with h10 | ⟨od, s6, h10, h⟩
  · exact orders_inv ih hreg hb hk5 h10
  have hk6 := hk5.then (buildOrders_eff hB he ctx r) h10
  obtain ⟨b6, h11, h⟩ := getQB_bind_err h
  rcases bind_err_inv h with h12 | ⟨sel, s7, h12, h⟩
  · exact selects_inv ih hreg hb hk6 h12
  have hk7 := hk6.then (buildSelects_eff hB he ctx r) h12
  obtain ⟨b7, h13, h⟩ := getQB_bind_err h
  rcases bind_err_inv h with h14 | ⟨q, s8, h14, h⟩
  · split at h14
    · rcases bind_err_inv h14 with h15 | ⟨u, s9, -, h15⟩
      · exact union_inv ih hreg (hat hk7 h13) hk7 h15
      · cases congrArg Prod.fst h15
    · cases congrArg Prod.fst h14
  obtain ⟨b8, h15, h⟩ := getQB_bind_err h
  rcases bind_err_inv h with h16 | ⟨u, s9, -, h⟩
  · split at h16
    · unfold debugLog at h16
      split at h16 <;> cases congrArg Prod.fst h16
    · cases congrArg Prod.fst h16
  · cases congrArg Prod.fst h

end

/-! ## All of it -/

theorem explained (L : GoLib) (n : Nat) : Explained L n := by
  induction n with
  | zero =>
    constructor
    · intro ctx b s0 s s' e _ _ h; cases congrArg Prod.fst h
    · intro ctx fr es s0 s s' e _ _ _ h; cases congrArg Prod.fst h
  | succ n ih =>
    constructor
    · intro ctx b s0 s s' e hr hk h
      change buildBuilder L (run L n) n ctx b s = _ at h
      cases b with
      | nil => cases congrArg Prod.fst h
      | nilFrag => cases congrArg Prod.fst h
      | frag f => exact fragment_inv ih hr hk h
      | nilColumn => cases congrArg Prod.fst h
      | columnNilFrag t => cases congrArg Prod.fst h
      | column t f => exact .column (fragment_inv ih hr hk h)
      | table t => cases congrArg Prod.fst h
      | aliased a b => cases congrArg Prod.fst h
      | nilQb => cases congrArg Prod.fst h
      | qb r =>
        obtain ⟨b', h1, -⟩ := getQB_bind_err (show M.bind (getQB r) _ s = _ from h)
        obtain ⟨b, h2, -⟩ := hk.at h1
        exact .query h2 (query_inv ih hr h2 hk h)
      | custom p => exact .code
    · intro ctx fr es s0 s s' e hr hc hk h
      obtain ⟨x, hx, s1, hk1, h1⟩ := clause_err_kept hk (show buildClause L (run L n) n ctx es s = _ from h)
      exact ⟨x, hx, expr_inv ih hr hc hk1 h1⟩

end Sqlf

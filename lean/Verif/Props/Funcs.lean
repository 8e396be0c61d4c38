import Verif.Spec.Funcs
import Verif.Model.Eval
import Verif.KernelRfl
/-!
# C38, C39, C41: preprocessing functions
-/

namespace Sqlf.Props

open Spec

private theorem goodName_iff (L : GoLib) (name : Str) : goodName L name = true ↔ AllowedName L name := by
  simp [goodName, AllowedName]

private theorem goodArgType_iff (t : GoType) : goodArgType t = true ↔ AllowedParam t := by
  cases t <;> simp [goodArgType, AllowedParam]

private theorem goodOuts_iff (outs : List GoType) :
    goodOuts outs = true ↔ (outs = [] ∨ outs = [.string 0] ∨ outs = [.string 0, .error]) := by
  match outs with
  | [] => simp [goodOuts]
  | [o] => simp [goodOuts]
  | [o, e] => simp [goodOuts]
  | _ :: _ :: _ :: _ => simp [goodOuts]

/-- The parameter types with the variadic one replaced by its element type. -/
private def elemLast (ins : List GoType) (variadic : Bool) : List GoType :=
  if variadic then ins.dropLast ++ (ins.getLast?.map GoType.elem).toList else ins

private theorem elemLast_length (ins : List GoType) (variadic : Bool) :
    (elemLast ins variadic).length = ins.length := by
  unfold elemLast
  split
  · rcases List.eq_nil_or_concat ins with rfl | ⟨l, a, rfl⟩ <;> simp
  · rfl

private theorem elemLast_get (ins : List GoType) (variadic : Bool) (i : Nat) (t : GoType)
    (h : ins[i]? = some t) :
    (elemLast ins variadic)[i]? = some (if variadic = true ∧ i + 1 = ins.length then t.elem else t) := by
  unfold elemLast
  obtain ⟨hlt, rfl⟩ := List.getElem?_eq_some_iff.mp h
  cases variadic
  · simp [hlt]
  · simp only [if_true, true_and]
    have hne : ins ≠ [] := by rintro rfl; simp at hlt
    rw [List.getLast?_eq_some_getLast hne]
    by_cases hl : i + 1 = ins.length
    · rw [if_pos hl, List.getElem?_append_right (by simp; omega)]
      have : i - ins.dropLast.length = 0 := by simp; omega
      simp [List.getLast_eq_getElem, show ins.length - 1 = i by omega]
    · rw [if_neg hl, List.getElem?_append_left (by simp; omega)]
      simp [show i < ins.length - 1 by omega]

private theorem goodFunc_none_iff (f : FuncInfo) :
    goodFunc f = none ↔ AllowedSignature f.ins f.variadic f.outs := by
  have hlen := elemLast_length f.ins f.variadic
  have key : (checkedArgTypes f.ins f.variadic).all goodArgType = true ↔
      ∀ (i : Nat) (t : GoType), f.ins[i]? = some t → (i = 0 ∧ t = .context) ∨
        AllowedParam (if f.variadic = true ∧ i + 1 = f.ins.length then t.elem else t) := by
    have hc : checkedArgTypes f.ins f.variadic =
        if f.ins.head? = some .context then (elemLast f.ins f.variadic).drop 1
        else elemLast f.ins f.variadic := rfl
    rw [hc, List.all_eq_true]
    constructor
    · intro h i t ht
      have hg := elemLast_get f.ins f.variadic i t ht
      split at h
      · rename_i hh
        cases i with
        | zero =>
          left; refine ⟨rfl, ?_⟩
          rw [List.head?_eq_getElem?] at hh
          rw [hh] at ht; simpa using ht.symm
        | succ i =>
          right
          rw [← goodArgType_iff]
          apply h
          rw [List.mem_iff_getElem?]
          exact ⟨i, by rw [List.getElem?_drop, Nat.add_comm]; exact hg⟩
      · right
        rw [← goodArgType_iff]
        exact h _ (List.mem_iff_getElem?.mpr ⟨i, hg⟩)
    · intro h t ht
      split at ht
      · rename_i hh
        obtain ⟨i, hi⟩ := List.mem_iff_getElem?.mp ht
        rw [List.getElem?_drop] at hi
        have hlt := (List.getElem?_eq_some_iff.mp hi).1
        rw [hlen] at hlt
        have hg := elemLast_get f.ins f.variadic (1 + i) _ (List.getElem?_eq_getElem hlt)
        rw [hi] at hg
        rcases h (1 + i) _ (List.getElem?_eq_getElem hlt) with h1 | h1
        · omega
        · rw [goodArgType_iff]; simp at hg; rw [hg]; exact h1
      · rename_i hh
        obtain ⟨i, hi⟩ := List.mem_iff_getElem?.mp ht
        have hlt := (List.getElem?_eq_some_iff.mp hi).1
        rw [hlen] at hlt
        have hg := elemLast_get f.ins f.variadic i _ (List.getElem?_eq_getElem hlt)
        rw [hi] at hg
        rcases h i _ (List.getElem?_eq_getElem hlt) with h1 | h1
        · exfalso; apply hh
          obtain ⟨rfl, h1⟩ := h1
          rw [List.head?_eq_getElem?, List.getElem?_eq_getElem hlt, h1]
        · rw [goodArgType_iff]; simp at hg; rw [hg]; exact h1
  unfold goodFunc AllowedSignature
  rw [← goodOuts_iff, ← key]
  cases goodOuts f.outs <;> simp

private theorem lookupFn_append (m m' : List (Str × FuncInfo)) (name : Str) :
    lookupFn (m ++ m') name = (lookupFn m name).or (lookupFn m' name) := by
  simp only [lookupFn, List.find?_append]
  cases List.find? (fun p => decide (p.1 = name)) m <;> simp

/-- The table made of a function map. -/
private def infos (fm : FuncMap) : List (Str × FuncInfo) :=
  fm.filterMap fun p => match p.2 with
    | .notFunc => none
    | .func ins v outs body => some (p.1, ⟨p.1, ins, v, outs, body⟩)

private theorem addValueFuncs_iff (L : GoLib) (fm : FuncMap) (out m : List (Str × FuncInfo))
    (hd : IsMap fm) (hout : ∀ p ∈ fm, lookupFn out p.1 = none) :
    addValueFuncs L out fm = .ok m ↔ (∀ p ∈ fm, AllowedEntry L p.1 p.2) ∧ m = out ++ infos fm := by
  induction fm generalizing out with
  | nil => simp [addValueFuncs, infos, eq_comm]
  | cons p fm ih =>
    obtain ⟨name, fv⟩ := p
    have hd' : name ∉ fm.map (·.1) ∧ IsMap fm := by simpa [IsMap] using hd
    have ho := hout (name, fv) (by simp)
    simp only [addValueFuncs]
    by_cases hn : goodName L name = true
    · simp only [hn, Bool.not_true, Bool.false_eq_true, if_false]
      cases fv with
      | notFunc => simp [AllowedEntry]
      | func ins v outs body =>
        simp only [ho, Option.isSome_none, Bool.false_eq_true, if_false]
        have hg := goodFunc_none_iff ⟨name, ins, v, outs, body⟩
        cases hgf : goodFunc ⟨name, ins, v, outs, body⟩ with
        | some e =>
          rw [hgf] at hg
          simp only [reduceCtorEq, false_iff] at hg ⊢
          rintro ⟨h1, -⟩
          have := h1 (name, .func ins v outs body) (by simp)
          exact hg this.2
        | none =>
          rw [hgf] at hg
          simp only [true_iff] at hg
          rw [ih _ hd'.2]
          · constructor
            · rintro ⟨h1, h2⟩
              refine ⟨?_, ?_⟩
              · intro p hp
                rcases List.mem_cons.mp hp with rfl | hp
                · exact ⟨(goodName_iff L name).mp hn, hg⟩
                · exact h1 p hp
              · rw [h2]; simp [infos]
            · rintro ⟨h1, h2⟩
              exact ⟨fun p hp => h1 p (by simp [hp]), by rw [h2]; simp [infos]⟩
          · intro p hp
            rw [lookupFn_append, hout p (by simp [hp])]
            simp only [lookupFn, Option.none_or, Option.map_eq_none_iff, List.find?_cons]
            have : name ≠ p.1 := by
              rintro rfl; exact hd'.1 (List.mem_map_of_mem hp)
            simp [this]
    · simp only [hn]
      simp only [Bool.not_false, if_true, reduceCtorEq, false_iff]
      rintro ⟨h1, -⟩
      have := h1 (name, fv) (by simp)
      apply hn
      cases fv with
      | notFunc => exact absurd this (by simp [AllowedEntry])
      | func ins v outs body => exact (goodName_iff L name).mpr this.1

/-- **C39** ContextWithFuncs succeeds exactly if every name and every signature of the map is
allowed – whatever the iteration order of the map (`fm` is the map in iteration order). -/
theorem C39_function_maps_validated (L : GoLib) (c : Ctx) (fm : FuncMap) (h : IsMap fm) :
    (∃ c', contextWithFuncs L c fm = .ok c') ↔
      ∀ name fv, (name, fv) ∈ fm → AllowedEntry L name fv := by
  have hi := fun m => addValueFuncs_iff L fm [] m h (by simp [lookupFn])
  unfold contextWithFuncs
  constructor
  · rintro ⟨c', hc⟩
    split at hc
    · simp at hc
    · rename_i m hm
      intro name fv hp
      exact ((hi m).mp hm).1 (name, fv) hp
  · intro ha
    rw [(hi _).mpr ⟨fun p hp => ha p.1 p.2 hp, rfl⟩]
    exact ⟨_, rfl⟩

private theorem lookup_infos (fm : FuncMap) (h : IsMap fm) (name : Str) (ins : List GoType)
    (v : Bool) (outs : List GoType) (body : Body) (hm : (name, FuncVal.func ins v outs body) ∈ fm) :
    lookupFn (infos fm) name = some ⟨name, ins, v, outs, body⟩ := by
  induction fm with
  | nil => simp at hm
  | cons p fm ih =>
    obtain ⟨n, fv⟩ := p
    have hd' : n ∉ fm.map (·.1) ∧ IsMap fm := by simpa [IsMap] using h
    rcases List.mem_cons.mp hm with he | hm'
    · simp at he; obtain ⟨rfl, rfl⟩ := he
      simp [infos, lookupFn]
    · have hne : n ≠ name := by
        rintro rfl; exact hd'.1 (List.mem_map_of_mem (f := (·.1)) hm')
      have := ih hd'.2 hm'
      cases fv with
      | notFunc => simpa [infos] using this
      | func i' v' o' b' =>
        simp only [infos, lookupFn, List.filterMap_cons, List.find?_cons, hne, decide_false] at this ⊢
        exact this

private theorem lookup_infos_none (fm : FuncMap) (name : Str) (hm : name ∉ fm.map (·.1)) :
    lookupFn (infos fm) name = none := by
  simp only [lookupFn, Option.map_eq_none_iff, List.find?_eq_none, infos, List.mem_filterMap]
  rintro ⟨n, f⟩ ⟨⟨n', fv⟩, h1, h2⟩
  cases fv with
  | notFunc => simp at h2
  | func i v o b =>
    simp at h2
    obtain ⟨rfl, _⟩ := h2
    simp only [decide_eq_true_eq]
    rintro rfl; exact hm (List.mem_map_of_mem (f := (·.1)) h1)

/-- **C38** A function added with ContextWithFuncs is found under its name, with the signature and
body it was added with, whatever the parent contexts define; every other name resolves as in
the parent context.  The parent itself is a separate value. -/
theorem C38_nearest_definition_wins (L : GoLib) (c c' : Ctx) (fm : FuncMap) (h : IsMap fm)
    (hc : contextWithFuncs L c fm = .ok c') (name : Str) :
    (∀ ins v outs body, (name, FuncVal.func ins v outs body) ∈ fm →
      c'.fn name = some ⟨name, ins, v, outs, body⟩) ∧
    (name ∉ fm.map (·.1) → c'.fn name = c.fn name) := by
  unfold contextWithFuncs at hc
  split at hc
  · simp at hc
  · rename_i m hm
    obtain ⟨-, hm⟩ := (addValueFuncs_iff L fm [] m h (by simp [lookupFn])).mp hm
    simp at hc; subst hc
    simp only [List.nil_append] at hm
    subst hm
    constructor
    · intro ins v outs body hmem
      simp [Ctx.fn, lookup_infos fm h name ins v outs body hmem]
    · intro hn
      simp [Ctx.fn, lookup_infos_none fm name hn]

/-- **C39** (order) Two iteration orders of the same map give contexts with the same functions. -/
theorem C39_iteration_order_irrelevant (L : GoLib) (c c₁ : Ctx) (fm fm' : FuncMap) (h : IsMap fm)
    (hp : ∀ p, p ∈ fm ↔ p ∈ fm') (h' : IsMap fm') (hc : contextWithFuncs L c fm = .ok c₁) :
    ∃ c₂, contextWithFuncs L c fm' = .ok c₂ ∧ ∀ name, c₂.fn name = c₁.fn name := by
  have ha := (C39_function_maps_validated L c fm h).mp ⟨c₁, hc⟩
  obtain ⟨c₂, hc₂⟩ := (C39_function_maps_validated L c fm' h').mpr
    fun name fv hm => ha name fv ((hp (name, fv)).mpr hm)
  refine ⟨c₂, hc₂, fun name => ?_⟩
  have w1 := C38_nearest_definition_wins L c c₁ fm h hc name
  have w2 := C38_nearest_definition_wins L c c₂ fm' h' hc₂ name
  by_cases hn : name ∈ fm.map (·.1)
  · obtain ⟨⟨n, fv⟩, hm, rfl⟩ := List.mem_map.mp hn
    have hal := ha n fv hm
    cases fv with
    | notFunc => exact absurd hal (by simp [AllowedEntry])
    | func ins v outs body =>
      rw [w1.1 _ _ _ _ hm, w2.1 _ _ _ _ ((hp _).mp hm)]
  · rw [w1.2 hn, w2.2]
    intro hn'
    obtain ⟨p, hm, rfl⟩ := List.mem_map.mp hn'
    exact hn (List.mem_map_of_mem (f := (·.1)) ((hp p).mpr hm))

/-- A map with one function `upper(string) string` shadowing nothing. -/
example (L : GoLib) : ∃ c', contextWithFuncs L newEmptyContext
    [(lit "upper", .func [.string 0] false [.string 0] (.custom fun _ => .ret []))] = .ok c' :=
  (C39_function_maps_validated L newEmptyContext _ (by simp [IsMap])).mpr (by
    intro name fv h
    simp at h
    obtain ⟨rfl, rfl⟩ := h
    refine ⟨⟨by decide, ?_⟩, Or.inr (Or.inl rfl), ?_⟩
    · have : runes (lit "upper") = [117, 112, 112, 101, 114] := by decide
      rw [this]; intro r hr; simp at hr
      right; rcases hr with rfl | rfl | rfl | rfl | rfl <;> simp [isLetterRune]
    · intro i t ht
      cases i with
      | zero => simp at ht; subst ht; right; simp [AllowedParam]
      | succ i => simp at ht)

/-- A function returning an `int` is not accepted. -/
example (L : GoLib) : ¬ AllowedEntry L (lit "f") (.func [] false [.num .int 0] (.custom fun _ => .ret [])) := by
  simp [AllowedEntry, AllowedSignature]

/-! ## C41 -/

theorem arityOk_iff_countFits (f : FuncInfo) (hv : f.variadic = true → f.ins ≠ [])
    (hc : f.variadic = true → f.ins ≠ [.context]) (n : Nat) :
    f.arityOk n = true ↔ countFits f n := by
  unfold FuncInfo.arityOk countFits paramCount FuncInfo.inContextFirst FuncInfo.nInFixed FuncInfo.nIn
  by_cases hh : f.ins.head? = some .context
  · cases hva : f.variadic
    · simp [hh]
    · have h1 := hv hva
      have h2 := hc hva
      have h3 : 2 ≤ f.ins.length := by
        match hi : f.ins with
        | [] => exact absurd hi h1
        | [t] => rw [hi] at hh h2; simp at hh; subst hh; exact absurd rfl h2
        | _ :: _ :: _ => simp
      simp [hh]
  · cases hva : f.variadic
    · simp [hh]
    · have h1 : 1 ≤ f.ins.length := by
        rcases hi : f.ins with _ | ⟨t, ts⟩
        · exact absurd hi (hv hva)
        · simp
      simp [hh]

/-- **C41** (count) A call with a wrong number of arguments is an error, and nothing happens: the
function is not run, no argument is committed, no other effect. The hypotheses on `f` hold for
every Go function type (a variadic function's last parameter is a slice). -/
theorem C41_wrong_count_rejected (L : GoLib) (rec : Rec) (fuel : Nat) (ctx : Ctx) (f : FuncInfo)
    (args : List CallArg) (s : St)
    (hv : f.variadic = true → f.ins ≠ []) (hc : f.variadic = true → f.ins ≠ [.context])
    (h : ¬ countFits f args.length) :
    ∃ e, evalCall L rec fuel ctx f args s = (.err e, s) := by
  rw [← arityOk_iff_countFits f hv hc] at h
  exact ⟨.wrongArgCount f.name, by simp [evalCall, h, M.err]⟩

/-- `#f(1)` for a `func(ctx *Context, a, b int) string`, and `#g()` for a `func(a int, more ...string) string`. -/
example : ¬ countFits ⟨lit "f", [.context, .num .int 0, .num .int 0], false, [.string 0], .custom fun _ => .ret []⟩ 1 ∧
    ¬ countFits ⟨lit "g", [.num .int 0, .slice (.string 0)], true, [.string 0], .custom fun _ => .ret []⟩ 0 := by
  simp [countFits, paramCount]

private theorem evalArg_ne_oof (t : GoType) (a : CallArg) : evalArg t a ≠ .oof := by
  cases t <;> cases a <;> simp [evalArg]

private theorem evalArg_misfit (t : GoType) (a : CallArg) (hm : literalFits t a = false)
    (hint : ∀ j, a ≠ .int j) :
    (∃ e, evalArg t a = .err e) ∨ ((∃ x, a = .num x) ∧ ∃ p, evalArg t a = .panic p) := by
  cases t <;> cases a <;> simp_all [evalArg, literalFits]

private theorem evalArgs_mismatch (ts : List GoType) (as : List CallArg) (i : Nat) (t : GoType)
    (a : CallArg) (ht : ts[i]? = some t) (ha : as[i]? = some a)
    (hm : literalFits t a = false) (hint : ∀ j, CallArg.int j ∉ as) :
    (∃ e, evalArgs ts as = .err e) ∨
    ((∃ (j : Nat) (x : Flt) (t' : GoType), as[j]? = some (.num x) ∧ ts[j]? = some t' ∧
        literalFits t' (.num x) = false) ∧ ∃ p, evalArgs ts as = .panic p) := by
  induction ts generalizing as i with
  | nil => simp at ht
  | cons t' ts ih =>
    cases as with
    | nil => simp at ha
    | cons a' as =>
      have hint' : ∀ j, a' ≠ .int j := fun j h => hint j (by simp [h])
      simp only [evalArgs]
      by_cases hm' : literalFits t' a' = false
      · rcases evalArg_misfit t' a' hm' hint' with ⟨e, he⟩ | ⟨⟨x, rfl⟩, p, hp⟩
        · left; exact ⟨e, by rw [he]⟩
        · right; exact ⟨⟨0, x, t', by simp, by simp, hm'⟩, p, by rw [hp]⟩
      · cases i with
        | zero => simp at ht ha; subst ht; subst ha; exact absurd hm hm'
        | succ i =>
          have h := ih as i (by simpa using ht) (by simpa using ha) (fun j hj => hint j (by simp [hj]))
          have hok : ∃ v, evalArg t' a' = .ok v := by
            cases t' <;> cases a' <;> simp_all [evalArg, literalFits]
          obtain ⟨v, hv⟩ := hok
          rw [hv]
          rcases h with ⟨e, he⟩ | ⟨⟨j, x, t'', h1, h2, h3⟩, p, hp⟩
          · left; exact ⟨e, by simp [he]⟩
          · right; exact ⟨⟨j + 1, x, t'', by simpa using h1, by simpa using h2, h3⟩, p, by simp [hp]⟩

theorem paramTypes_get_fits (f : FuncInfo) (n i : Nat) (hv : f.variadic = true → f.ins ≠ [])
    (hc : f.variadic = true → f.ins ≠ [.context]) (hi : i < n) (hn : countFits f n) :
    (f.paramTypes n)[i]? = paramType f i := by
  have hts : f.variadic = true →
      (if f.ins.head? = some .context then f.ins.tail else f.ins) ≠ [] := by
    intro h
    have h1 := hv h
    have h2 := hc h
    split
    · rename_i hh
      match hi : f.ins, h1, h2, hh with
      | [t], _, h2, hh => simp at hh; subst hh; exact absurd rfl h2
      | t :: t' :: ts, _, _, _ => simp
    · exact h1
  unfold FuncInfo.paramTypes paramType FuncInfo.inContextFirst
  simp only [decide_eq_true_eq, List.drop_one]
  revert hts
  generalize (if f.ins.head? = some .context then f.ins.tail else f.ins) = ts
  intro hts
  by_cases hv : f.variadic = true
  · have h1 := hts hv
    have h2 : 0 < ts.length := List.length_pos_iff.2 h1
    rw [if_pos hv]
    by_cases hl : ts.length ≤ i + 1
    · rw [if_pos ⟨hv, hl⟩, List.getElem?_append_right (by simp; omega), List.getElem?_replicate,
        if_pos (by simp; omega), List.getLast?_eq_some_getLast h1]
      rfl
    · rw [if_neg (by simp [hl]), List.getElem?_append_left (by simp; omega), List.getElem?_dropLast,
        if_pos (by omega)]
  · rw [if_neg hv, if_neg (by simp [hv])]

/-- **C41** (types) A call in which some literal does not fit its parameter never runs the function
and has no effect; it is an error unless a *number* literal is given for a parameter that is not
a number, in which case it panics. -/
theorem C41_wrong_literal_not_run (L : GoLib) (rec : Rec) (fuel : Nat) (ctx : Ctx) (f : FuncInfo)
    (args : List CallArg) (s : St)
    (hv : f.variadic = true → f.ins ≠ []) (hc : f.variadic = true → f.ins ≠ [.context])
    (hint : ∀ j, CallArg.int j ∉ args)
    (i : Nat) (t : GoType) (a : CallArg) (ha : args[i]? = some a) (ht : paramType f i = some t)
    (hm : literalFits t a = false) :
    (∃ e, evalCall L rec fuel ctx f args s = (.err e, s)) ∨
    ((∃ (j : Nat) (x : Flt) (t' : GoType), args[j]? = some (.num x) ∧ paramType f j = some t' ∧
        literalFits t' (.num x) = false) ∧
      ∃ p, evalCall L rec fuel ctx f args s = (.panic p, s)) := by
  by_cases hn : countFits f args.length
  · have hlt := (List.getElem?_eq_some_iff.mp ha).1
    rw [← paramTypes_get_fits f args.length i hv hc hlt hn] at ht
    have har : f.arityOk args.length = true := (arityOk_iff_countFits f hv hc _).mpr hn
    rcases evalArgs_mismatch _ args i t a ht ha hm hint with ⟨e, he⟩ | ⟨⟨j, x, t', h1, h2, h3⟩, p, hp⟩
    · left; exact ⟨.argType f.name, by simp [evalCall, har, he, M.err]⟩
    · right
      have hlt' := (List.getElem?_eq_some_iff.mp h1).1
      rw [paramTypes_get_fits f args.length j hv hc hlt' hn] at h2
      exact ⟨⟨j, x, t', h1, h2, h3⟩, p, by simp [evalCall, har, hp, M.panic]⟩
  · left; exact C41_wrong_count_rejected L rec fuel ctx f args s hv hc hn

/-- **C41** (types, partial) A call in which some literal does not fit its parameter is an error and
has no effect, if every number literal stands for a number parameter.  Missing: number literals
for string or bool parameters, see the counterexample. -/
theorem C41_wrong_literal_rejected_partial (L : GoLib) (rec : Rec) (fuel : Nat) (ctx : Ctx)
    (f : FuncInfo) (args : List CallArg) (s : St)
    (hv : f.variadic = true → f.ins ≠ []) (hc : f.variadic = true → f.ins ≠ [.context])
    (hint : ∀ j, CallArg.int j ∉ args)
    (hnum : ∀ (j : Nat) (x : Flt) (t' : GoType), args[j]? = some (.num x) → paramType f j = some t' →
      literalFits t' (.num x) = true)
    (i : Nat) (t : GoType) (a : CallArg) (ha : args[i]? = some a) (ht : paramType f i = some t)
    (hm : literalFits t a = false) :
    ∃ e, evalCall L rec fuel ctx f args s = (.err e, s) := by
  rcases C41_wrong_literal_not_run L rec fuel ctx f args s hv hc hint i t a ha ht hm with h | ⟨⟨j, x, t', h1, h2, h3⟩, -⟩
  · exact h
  · rw [hnum j x t' h1 h2] at h3; simp at h3

/-- `#f('x')` with `f(ctx, int)`: the hypotheses hold. -/
example : paramType ⟨lit "f", [.context, .num .int 0], false, [.string 0], .builtin .fragment⟩ 0
      = some (.num .int 0) ∧ literalFits (.num .int 0) (.str (lit "x")) = false := by decide

/-- **C41** is false for number literals: `#join(1, ',')` panics (a template is not a number), and
this panic leaves BuildQuery. -/
theorem C41_number_for_string_panics_counterexample (L : GoLib) :
    buildQuery L 10 (.frag (.F (lit "#join(1, ',')"))) question = .panic .reflectConvert := by
  kernel_rfl

/-- The same mistake with other literals is an error. -/
example (L : GoLib) : buildQuery L 10 (.frag (.F (lit "#join(true, ',')"))) question
    = .err (.wrap (lit "#join(true, ',')") (.argType (lit "join"))) := by
  kernel_rfl

end Sqlf.Props

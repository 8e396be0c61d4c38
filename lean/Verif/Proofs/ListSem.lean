import Verif.Spec.QueryDoc
import Verif.Proofs.Denote
import Verif.Proofs.Query
/-!
# The meaning of clauses that list builders
-/

namespace Sqlf

open Spec

theorem joinDocs_cons (sep : Str) (d : Doc) (ds : List Doc) (h : ds ≠ []) :
    joinDocs sep (d :: ds) = d ++ Doc.ofStr sep ++ joinDocs sep ds := by
  cases ds with
  | nil => exact absurd rfl h
  | cons e es => rfl

theorem joinDocs_snoc (sep : Str) (ds : List Doc) (e : Doc) (h : ds ≠ []) :
    joinDocs sep (ds ++ [e]) = joinDocs sep ds ++ Doc.ofStr sep ++ e := by
  induction ds with
  | nil => exact absurd rfl h
  | cons d ds ih =>
    by_cases hd : ds = []
    · subst hd; rfl
    · rw [List.cons_append, joinDocs_cons _ _ _ (by simp), ih hd, joinDocs_cons _ _ _ hd]
      simp [List.append_assoc]

theorem joinDocs_ne (sep : Str) (ds : List Doc) (h : ds ≠ []) (hn : ∀ d ∈ ds, d ≠ []) : joinDocs sep ds ≠ [] := by
  cases ds with
  | nil => exact absurd rfl h
  | cons d ds =>
    have : d ≠ [] := hn d (by simp)
    cases ds with
    | nil => exact this
    | cons e es => rw [joinDocs]; simp [this]

theorem foldl_joinDoc (sep : Str) (ds es : List Doc) (he : ∀ d ∈ es, d ≠ []) :
    ds.foldl (joinDoc sep) (joinDocs sep es) = joinDocs sep (es ++ ds.filter (· ≠ [])) := by
  induction ds generalizing es with
  | nil => simp
  | cons d ds ih =>
    rw [List.foldl_cons]
    by_cases hd : d = []
    · rw [show joinDoc sep (joinDocs sep es) d = joinDocs sep es from if_pos hd,
        List.filter_cons_of_neg (by simp [hd])]
      exact ih es he
    · rw [List.filter_cons_of_pos (by simp [hd])]
      by_cases hes : es = []
      · subst hes
        rw [show joinDoc sep (joinDocs sep []) d = d from (if_neg hd).trans (if_pos rfl)]
        exact ih [d] (by simp [hd])
      · rw [show joinDoc sep (joinDocs sep es) d = joinDocs sep es ++ Doc.ofStr sep ++ d from
          (if_neg hd).trans (if_neg (joinDocs_ne sep es hes he)), ← joinDocs_snoc _ _ _ hes]
        have := ih (es ++ [d]) (by
          intro x hx
          rcases List.mem_append.1 hx with hx | hx
          · exact he x hx
          · rw [List.mem_singleton.1 hx]; exact hd)
        rw [List.append_assoc] at this
        exact this

/-- `#fragment` at an index. -/
theorem evalItem (L : GoLib) (parse : Str → Option (List Expr)) (bad : Val → Bool) (fs : List Sem) (depth k : Nat)
    (log : List Val) (used : List Ref) :
    clauseDoc bad ⟨[], fs⟩ (callDoc L parse bad ⟨[], fs⟩ depth)
        (atIndex ((k : Int) + 1) [.func (lit "fragment"), .plain []]) ⟨log, used⟩ =
      match fs[k]? with
      | none => (.invalidIndex, ⟨log, used⟩)
      | some f => match f log with
        | (.ok d, log') => (.ok d, ⟨log', .frag ((k : Int) + 1) :: used⟩)
        | (.invalidIndex, log') => (.invalidIndex, ⟨log', .frag ((k : Int) + 1) :: used⟩)
        | (.error, log') => (.error, ⟨log', .frag ((k : Int) + 1) :: used⟩)
        | (.panic, log') => (.error, ⟨log', .frag ((k : Int) + 1) :: used⟩) := by
  have hi : item? ((k : Int) + 1) fs = fs[k]? := by
    unfold item?
    rw [if_pos (by omega)]
    congr 1
    omega
  have hc : callDoc L parse bad ⟨[], fs⟩ depth (lit "fragment") [.int ((k : Int) + 1)] =
      (fragDoc ⟨[], fs⟩ ((k : Int) + 1)).contain := by
    unfold callDoc
    rw [if_neg (by decide +kernel), if_pos (.inr rfl)]
    rfl
  show Step.bind (callDoc L parse bad ⟨[], fs⟩ depth (lit "fragment") [.int ((k : Int) + 1)])
    (fun d => Step.bind (Step.bind (Step.pure (Doc.ofStr [])) fun d => Step.bind (Step.pure []) fun d' => Step.pure (d ++ d'))
      fun d' => Step.pure (d ++ d')) ⟨log, used⟩ = _
  rw [hc]
  unfold fragDoc
  dsimp only
  rw [hi]
  cases hf : fs[k]? with
  | none => rfl
  | some f =>
    dsimp only
    rcases hr : f log with ⟨r, log'⟩
    unfold Step.bind Step.contain
    dsimp only
    rw [hr]
    cases r <;> simp [Step.pure, Doc.ofStr]

theorem items_inList (L : GoLib) (parse : Str → Option (List Expr)) (bad : Val → Bool) (sep : Str) (fs : List Sem)
    (depth : Nat) (fs' : List Sem) : ∀ k, fs.drop k = fs' → ∀ n, fs'.length < n → ∀ acc log used,
    (∀ j : Nat, .frag ((j : Int) + 1) ∈ used → j < k) →
    ∃ used', match inList fs' log with
      | (.ok ds, log') =>
        itemsDoc (clauseDoc bad ⟨[], fs⟩ (callDoc L parse bad ⟨[], fs⟩ depth)) [.func (lit "fragment"), .plain []]
          sep 0 0 n ((k : Int) + 1) acc ⟨log, used⟩ = (.ok (ds.foldl (joinDoc sep) acc), ⟨log', used'⟩) ∧
        (∀ x ∈ used, x ∈ used') ∧ ∀ j : Nat, k ≤ j → j < fs.length → .frag ((j : Int) + 1) ∈ used'
      | (_, log') =>
        itemsDoc (clauseDoc bad ⟨[], fs⟩ (callDoc L parse bad ⟨[], fs⟩ depth)) [.func (lit "fragment"), .plain []]
          sep 0 0 n ((k : Int) + 1) acc ⟨log, used⟩ = (.error, ⟨log', used'⟩) ∨
        ∃ d, itemsDoc (clauseDoc bad ⟨[], fs⟩ (callDoc L parse bad ⟨[], fs⟩ depth)) [.func (lit "fragment"), .plain []]
          sep 0 0 n ((k : Int) + 1) acc ⟨log, used⟩ = (.ok d, ⟨log', used'⟩) ∧
          ∃ j : Nat, j < fs.length ∧ .frag ((j : Int) + 1) ∉ used' := by
  induction fs' with
  | nil =>
    intro k hk n hn acc log used hu
    obtain ⟨n, rfl⟩ : ∃ m, n = m + 1 := ⟨n - 1, by simp at hn; omega⟩
    have hl : fs.length ≤ k := by simpa using hk
    refine ⟨used, ?_⟩
    simp only [inList, SemOf.pure]
    refine ⟨?_, fun x hx => hx, fun j h1 h2 => by omega⟩
    rw [itemsDoc]
    simp only [evalItem, List.getElem?_eq_none_iff.2 hl]
    simp
  | cons f fs' ih =>
    intro k hk n hn acc log used hu
    obtain ⟨n, rfl⟩ : ∃ m, n = m + 1 := ⟨n - 1, by simp at hn; omega⟩
    have hf : fs[k]? = some f := by
      have := congrArg (·[0]?) hk
      simpa using this
    have hd : fs.drop (k + 1) = fs' := by
      rw [← List.drop_drop, hk]; rfl
    have hlen : fs.length = k + 1 + fs'.length := by
      have := congrArg List.length hk
      simp at this
      omega
    have hu' : ∀ j : Nat, .frag ((j : Int) + 1) ∈ (.frag ((k : Int) + 1) :: used : List Ref) → j < k + 1 := by
      intro j hj
      rcases List.mem_cons.1 hj with hj | hj
      · simp only [Ref.frag.injEq] at hj; omega
      · have := hu j hj; omega
    simp only [itemsDoc, evalItem, hf, inList]
    rcases hr : f log with ⟨r, log'⟩
    cases r with
    | ok d =>
      obtain ⟨used', h⟩ := ih (k + 1) hd n (by simp at hn; omega) (joinDoc sep acc d) log'
        (.frag ((k : Int) + 1) :: used) hu'
      refine ⟨used', ?_⟩
      have hi : (((k + 1 : Nat) : Int) + 1) = (k : Int) + 1 + 1 := by omega
      rw [hi] at h
      dsimp only
      rw [if_neg (by omega)]
      unfold SemOf.bind
      revert h
      rcases inList fs' log' with ⟨r2, log2⟩
      cases r2 with
      | ok ds =>
        rintro ⟨h1, h2, h3⟩
        refine ⟨h1, fun x hx => h2 x (List.mem_cons_of_mem _ hx), fun j h4 h5 => ?_⟩
        by_cases hj : j = k
        · subst hj; exact h2 _ (by simp)
        · exact h3 j (by omega) h5
      | _ => exact id
    | invalidIndex =>
      have hc : ¬ ((0 : Int) > 0 ∧ (k : Int) + 1 = 0 ∨ (0 : Int) > 0 ∧ (k : Int) + 1 ≤ 0) := by omega
      simp only [if_neg hc]
      refine ⟨.frag ((k : Int) + 1) :: used, ?_⟩
      by_cases hfs : fs' = []
      · subst hfs
        simp only [if_true]
        refine ⟨rfl, fun x hx => List.mem_cons_of_mem _ hx, fun j h1 h2 => ?_⟩
        have : j = k := by simp at hlen; omega
        subst this
        simp
      · simp only [if_neg hfs]
        refine .inr ⟨acc, rfl, k + 1, ?_, fun hx => ?_⟩
        · have : fs'.length ≠ 0 := by simpa using hfs
          omega
        · have := hu' _ hx
          omega
    | error => exact ⟨_, .inl rfl⟩
    | panic => exact ⟨_, .inl rfl⟩

theorem inList_class (fs : List Sem) (log : List Val) : ∀ log', inList fs log ≠ (.invalidIndex, log') ∧
    inList fs log ≠ (.panic, log') := by
  induction fs generalizing log with
  | nil => intro log'; simp [inList, SemOf.pure]
  | cons f fs ih =>
    intro log'
    simp only [inList]
    rcases f log with ⟨r, log1⟩
    cases r with
    | ok d =>
      have := ih log1 log'
      dsimp only
      unfold SemOf.bind SemOf.pure
      rcases hr : inList fs log1 with ⟨r2, log2⟩
      rw [hr] at this
      cases r2 <;> simp_all
    | _ => simp <;> split <;> simp

/-- The meaning of a list clause. -/
theorem fragmentSem_list (L : GoLib) (parse : Str → Option (List Expr)) (bad : Val → Bool) (sep : String)
    (kw : Str) (fs : List Sem)
    (h1 : parse (joinRaw sep) = some [.call (lit "join") [.str (lit "#" ++ lit "fragment"), .str (lit sep)]])
    (h2 : parse (lit "#" ++ lit "fragment") = some [.func (lit "fragment"), .plain []]) :
    fragmentSem L parse bad (joinRaw sep) [] fs kw [] =
      SemOf.bind (inList fs) fun ds => SemOf.pure (decorateDoc kw [] (joinDocs (lit sep) (ds.filter (· ≠ [])))) := by
  funext log
  unfold fragmentSem
  rw [h1]
  dsimp only
  have hlen : ∃ d, (joinRaw sep).length = d + 1 := ⟨(joinRaw sep).length - 1, by
    have : 0 < (joinRaw sep).length := by
      unfold joinRaw
      rw [List.length_append, List.length_append]
      have : (lit "#join('#fragment', '").length = 20 := by decide +kernel
      omega
    omega⟩
  obtain ⟨depth, hd⟩ := hlen
  have hcall : callDoc L parse bad ⟨[], fs⟩ (joinRaw sep).length (lit "join")
      [.str (lit "#" ++ lit "fragment"), .str (lit sep)] =
      (itemsDoc (clauseDoc bad ⟨[], fs⟩ (callDoc L parse bad ⟨[], fs⟩ depth)) [.func (lit "fragment"), .plain []]
          (lit sep) 0 0 (fs.length + 1) 1 []).contain := by
    rw [hd]
    unfold callDoc
    rw [if_neg (by decide +kernel), if_neg (by decide +kernel), if_pos rfl]
    simp only [joinArgs, strArg, Res.bind, intArgs]
    unfold joinCall
    rw [if_neg (by simp), h2]
    dsimp only
    rw [if_neg (by decide), if_neg (by decide +kernel)]
    simp only [List.length_nil, Nat.zero_max]
    rfl
  have hcl : clauseDoc bad ⟨[], fs⟩ (callDoc L parse bad ⟨[], fs⟩ (joinRaw sep).length)
      [.call (lit "join") [.str (lit "#" ++ lit "fragment"), .str (lit sep)]] ⟨log, []⟩ =
      (itemsDoc (clauseDoc bad ⟨[], fs⟩ (callDoc L parse bad ⟨[], fs⟩ depth)) [.func (lit "fragment"), .plain []]
          (lit sep) 0 0 (fs.length + 1) 1 []).contain ⟨log, []⟩ := by
    rw [← hcall]
    show Step.bind _ _ _ = _
    simp only [exprDoc]
    unfold Step.bind
    rcases callDoc L parse bad ⟨[], fs⟩ (joinRaw sep).length (lit "join")
      [.str (lit "#" ++ lit "fragment"), .str (lit sep)] ⟨log, []⟩ with ⟨r, s⟩
    cases r <;> simp [clauseDoc, Step.pure]
  rw [hcl]
  obtain ⟨used', h⟩ := items_inList L parse bad (lit sep) fs depth fs 0 rfl (fs.length + 1) (by omega) [] log []
    (by simp)
  have hone : (((0 : Nat) : Int) + 1) = 1 := rfl
  rw [hone] at h
  have hcls := inList_class fs log
  unfold SemOf.bind Step.contain
  revert h hcls
  rcases inList fs log with ⟨r, log'⟩
  cases r with
  | ok ds =>
    rintro ⟨h3, -, h4⟩ -
    rw [h3]
    dsimp only
    have hall : allUsed used' ([] : List Val).length fs.length = true := by
      simp only [allUsed, List.length_nil, List.range_zero, List.all_nil, Bool.true_and, List.all_eq_true,
        List.mem_range, List.contains_iff_mem]
      exact fun j hj => h4 j (by omega) hj
    rw [if_pos hall]
    have := foldl_joinDoc (lit sep) ds [] (by simp)
    simp only [joinDocs, List.nil_append] at this
    rw [this]
    rfl
  | error =>
    rintro (h3 | ⟨d, h3, j, h4, h5⟩) -
    · rw [h3]
    · rw [h3]
      dsimp only
      have hall : ¬ allUsed used' ([] : List Val).length fs.length = true := by
        simp only [allUsed, List.length_nil, List.range_zero, List.all_nil, Bool.true_and, List.all_eq_true,
          List.mem_range, List.contains_iff_mem]
        exact fun h => h5 (h j h4)
      rw [if_neg hall]
  | invalidIndex => intro _ hc; exact absurd rfl (hc log').1
  | panic => intro _ hc; exact absurd rfl (hc log').2

end Sqlf

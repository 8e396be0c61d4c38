import Verif.Proofs.QuerySim
import Verif.Proofs.SameCalls
/-!
# A query builder corresponds to its meaning
-/

namespace Sqlf

open Spec

/-! ## Failures of the dependency analysis -/

/-- Not `ErrInvalidIndex`. -/
def OtherFailure : Out α → Prop
  | .err e => e.isInvalidIndex = false
  | .panic p => p.toErr.isInvalidIndex = false
  | _ => True

theorem foldOut_other {f : α → β → Out α} (h : ∀ a b, OtherFailure (f a b)) (a : α) (l : List β) :
    OtherFailure (foldOut f a l) := by
  induction l generalizing a with
  | nil => exact trivial
  | cons x l ih =>
    have hx := h a x
    unfold foldOut
    cases hf : f a x with
    | ok a' => exact ih a'
    | err e => rw [hf] at hx; exact hx
    | panic p => rw [hf] at hx; exact hx
    | oof => exact trivial

theorem extractTables_other (bs : List Builder) : OtherFailure (extractTables bs) := by
  unfold extractTables
  cases extractL bs [] <;> trivial

theorem depsFromTable_other (b : QB) (n : Nat) (deps : Deps) (t : Str) : OtherFailure (b.depsFromTable n deps t) := by
  induction n generalizing deps t with
  | zero => trivial
  | succ n ih =>
    unfold QB.depsFromTable
    cases b.dictGet t with
    | none => exact rfl
    | some ptr =>
      dsimp only
      split
      · trivial
      · cases hf : (b.cell ptr).fragment with
        | none => exact rfl
        | some f =>
          dsimp only
          have hx := extractTables_other [.frag f]
          cases he : extractTables [.frag f] with
          | ok fts => exact foldOut_other (ih) _ _
          | err e => rw [he] at hx; exact hx
          | panic p => rw [he] at hx; exact hx
          | oof => trivial

theorem depsFromCte_other (b : QB) (n : Nat) (deps : Deps) (c : Cte) : OtherFailure (b.depsFromCte n deps c) := by
  induction n generalizing deps c with
  | zero => trivial
  | succ n ih =>
    unfold QB.depsFromCte
    split
    · trivial
    · exact foldOut_other ih _ _

theorem collectDependencies_other (b : QB) : OtherFailure b.collectDependencies := by
  unfold QB.collectDependencies
  have hx := extractTables_other b.depRoots
  cases he : extractTables b.depRoots with
  | ok tables =>
    dsimp only
    cases b.tableList with
    | nil => exact rfl
    | cons main rest =>
      dsimp only
      have hf := foldOut_other (depsFromTable_other b b.depFuel) [main.names] tables
      cases hd : foldOut (b.depsFromTable b.depFuel) [main.names] tables with
      | ok deps =>
        refine foldOut_other (fun deps t => ?_) _ _
        split
        · trivial
        · cases b.cteGet t.names.name with
          | none => trivial
          | some c => exact depsFromCte_other ..
      | err e => rw [hd] at hf; exact hf
      | panic p => rw [hd] at hf; exact hf
      | oof => trivial
  | err e => rw [he] at hx; exact hx
  | panic p => rw [he] at hx; exact hx
  | oof => trivial

/-! ## Steps -/

/-- The list clauses have the templates that `NewQueryBuilder` gives them. -/
structure ShapedQB (b : QB) : Prop where
  selects : ∃ p, b.selects = .mk (joinRaw ", ") [] b.selects.frags p []
  touches : b.touches = .mk (joinRaw ", ") [] b.touches.frags [] []
  conditions : b.conditions = .mk (joinRaw " AND ") [] b.conditions.frags (lit "WHERE") []
  groupbys : b.groupbys = .mk (joinRaw ", ") [] b.groupbys.frags (lit "GROUP BY") []

/-- What building the ORDER BY clause makes of a query builder. -/
def afterOrders (b : QB) : QB :=
  { b with touches := b.touches.appendFragments (orderItems b.distinct 0 b.orders).2.1
           errors := b.errors ++ (orderItems b.distinct 0 b.orders).2.2 }

/-- All builders that are built for a query. -/
def allBuilders (b : QB) : List Builder :=
  b.ctes.map (·.builder) ++ b.tableList.map rowBuilder ++ b.conditions.frags ++ b.groupbys.frags
    ++ orderBuilders b.distinct 1 b.orders ++ b.selects.frags
    ++ (b.touches.frags ++ orderColumns b.distinct 1 b.orders) ++ b.unions

theorem KeptMem.get {T : List QB} {g : List Str} {a u : List Nat} {s : St} (h : KeptMem T g a u s) {r : Nat} {b : QB}
    (hr : T[r]? = some b) : ∃ p, s.heap[r]? = some { b with selects := b.selects.withPrefix p } := by
  obtain ⟨b', h1, p, rfl⟩ := h.1.2.some r b hr
  exact ⟨p, h1⟩

theorem getQB_bind {r : Nat} {b : QB} {s : St} (h : s.heap[r]? = some b) (k : QB → M α) :
    M.bind (getQB r) k s = k b s := by
  unfold M.bind getQB
  rw [h]

theorem modifyQB_bind {r : Nat} {b : QB} {s : St} (h : s.heap[r]? = some b) (f : QB → QB) (k : Unit → M α) :
    M.bind (modifyQB r f) k s = k () { s with heap := s.heap.set r (f b) } := by
  unfold M.bind modifyQB
  rw [h]

theorem KeptMem.set {T : List QB} {g : List Str} {a u : List Nat} {s : St} (h : KeptMem T g a u s) (r : Nat) {b b' : QB}
    (hb : SelectsOnly b b') : KeptMem (T.set r b) g a u { s with heap := s.heap.set r b' } :=
  ⟨⟨h.1.1, h.1.2.set hb r⟩, h.2⟩

theorem set_self {T : List QB} {r : Nat} {b : QB} (h : T[r]? = some b) : T.set r b = T := by
  apply List.ext_getElem?
  intro k
  by_cases e : r = k
  · subst e
    rw [List.getElem?_set_self (List.getElem?_eq_some_iff.1 h).1, h]
  · rw [List.getElem?_set_ne e]

theorem MatchesR.fail_ofOut {R : α → β → Prop} {o : Out α} (h : OtherFailure o) (hok : ∀ a, o ≠ .ok a) (ho : o ≠ .oof) :
    ∃ c : Res β, (c = match o with | .panic _ => .panic | _ => .error) ∧ MatchesR R c o := by
  cases o with
  | ok a => exact absurd rfl (hok a)
  | err e => exact ⟨.error, rfl, h⟩
  | panic p => exact ⟨.panic, rfl, h⟩
  | oof => exact absurd rfl ho

/-! ## The parts of a query -/

theorem zip_ctes {ps : List Str} (hm : Marks ps) (cs : List Cte) (ts : List Str) (ds : List Doc) (h : RDs ps ts ds) :
    RDs ps ((cs.zip ts).filterMap fun p => if p.2 = [] then none else some (p.1.name ++ lit " AS (" ++ p.2 ++ lit ")"))
      ((((cs.map (·.name)).zip ds).filter (·.2 ≠ [])).map cteDoc) := by
  obtain ⟨rfl, h⟩ := h
  induction ds generalizing cs with
  | nil => simp [RDs]
  | cons d ds ih =>
    cases cs with
    | nil => simp [RDs]
    | cons c cs =>
      have hd := renderDoc_eq_nil hm (h d (by simp))
      have hrd : RD ps (renderDoc ps d) d := ⟨rfl, h d (by simp)⟩
      have := ih cs fun x hx => h x (by simp [hx])
      simp only [List.map_cons, List.zip_cons_cons, List.filterMap_cons]
      by_cases hx : d = []
      · rw [if_pos (hd.2 hx), List.filter_cons_of_neg (by simp [hx])]
        exact this
      · rw [if_neg fun h => hx (hd.1 h), List.filter_cons_of_pos (by simp [hx]), List.map_cons]
        exact RDs.cons ((((rd_str ps _).append (rd_str ps _)).append hrd).append (rd_str ps _)) this

theorem with_clause {ps : List Str} (hm : Marks ps) {l : List Str} {ds : List Doc} (h : RDs ps l ds)
    (hn : ∀ d ∈ ds, d ≠ []) :
    RDs ps (nonEmpty (if l.length = 0 then [] else lit "With " ++ strJoin (lit ", ") l))
      (clauseDocs (lit "With") (joinDocs (lit ", ") ds)) := by
  have hl : l.length = ds.length := by rw [h.1, List.length_map]
  have hj := h.join (lit ", ")
  unfold clauseDocs
  by_cases hd : ds = []
  · subst hd
    rw [if_pos (by simpa using hl)]
    exact rds_nil ps
  · rw [if_neg (by rw [hl]; simpa using hd), if_neg (joinDocs_ne _ _ hd hn)]
    unfold nonEmpty
    rw [if_neg (by simp [lit])]
    exact (((rd_str ps (lit "With")).append (rd_str ps (lit " "))).append hj).single

/-- The CTEs. -/
theorem ctes_sim {s0 : Store} {T : List QB} {g : List Str} {L : GoLib} {child : Builder → Sem} {N : Nat} {b : QB}
    (h : SimsL ⟨s0, memory T g⟩ L N child (b.ctes.map (·.builder))) {m : Nat} (hm : N ≤ m) {ctx : Ctx}
    (hb : BuiltinCtx ctx) (deps : Deps) {ps : List Str} {s : St} {log : List Val}
    (hs : commitAll s0 log = some (ps, s.store)) {a u : List Nat} (hK : KeptMem T g a u s) :
    SimAt s0 (KeptMem T g a u)
      (fun ps t qs => RDs ps (nonEmpty t) (clauseDocs (lit "With") (joinDocs (lit ", ")
        (((((requestOf b deps).ctes.map (·.name)).zip qs).filter (·.2 ≠ [])).map cteDoc))))
      ps log (buildCTEs (run L m) ctx b deps s)
      (inTurn ((requestOf b deps).ctes.map fun c => child c.builder) log) := by
  have hcol := collect_sim (s0 := s0) (K := KeptMem T g a u) (as := b.ctes)
    (keep := fun c => decide ((⟨c.name, []⟩ : TableAliased) ∈ deps))
    (f := fun (c : Cte) =>
      if (⟨c.name, []⟩ : TableAliased) ∉ deps then M.pure none
      else M.bind (.wrapErr c.name (run L m ctx (.build c.builder))) fun q =>
        .pure (if q = [] then none else some (c.name ++ lit " AS (" ++ q ++ lit ")")))
    (m := fun c => M.wrapErr c.name (run L m ctx (.build c.builder))) (sem := fun c => child c.builder)
    (post := fun c q => if q = [] then none else some (c.name ++ lit " AS (" ++ q ++ lit ")"))
    (fun c _ hk => if_pos (by simpa using hk)) (fun c _ hk => if_neg (by simpa using hk))
    (fun c hc _ ps s log hs hK => SimAt.wrap _ ((h m hm ctx hb _ (List.mem_map_of_mem hc)).at hs hK)) ps s log hs hK
  refine SimAt.mapOut hcol ?_
  rintro ps l qs hmk ⟨-, ts, hts, rfl⟩
  refine with_clause hmk (zip_ctes hmk _ ts qs hts) ?_
  intro d hd
  obtain ⟨x, -, rfl⟩ := List.mem_map.1 hd
  simp [cteDoc, Doc.ofStr, lit]

/-- The FROM clause. -/
theorem from_sim {s0 : Store} {T : List QB} {g : List Str} {L : GoLib} {child : Builder → Sem} {N : Nat} {b : QB}
    (h : SimsL ⟨s0, memory T g⟩ L N child (b.tableList.map rowBuilder)) {m : Nat} (hm : N ≤ m) {ctx : Ctx}
    (hb : BuiltinCtx ctx) (deps : Deps) {ps : List Str} {s : St} {log : List Val}
    (hs : commitAll s0 log = some (ps, s.store)) {a u : List Nat} (hK : KeptMem T g a u s) :
    SimAt s0 (KeptMem T g a u)
      (fun ps t ts => RD ps t (Doc.ofStr (lit "FROM ") ++ joinDocs (lit " ") ts))
      ps log (buildFrom L (run L m) m ctx b deps s)
      (inTurn ((requestOf b deps).rows.map fun r => child (rowBuilder r)) log) := by
  have hcol := collect_sim (s0 := s0) (K := KeptMem T g a u) (as := b.tableList)
    (keep := fun r => decide (¬ (b.distinct ∧ r.optional ∧ r.names ∉ deps)))
    (f := fun (t : FromTable) =>
      if b.distinct ∧ t.optional ∧ t.names ∉ deps then M.pure none
      else M.bind (.wrapErr t.names.name (match t.fragment with
        | some f => buildFragment L (run L m) m ctx f
        | none => .pure [])) fun c => .pure (some c))
    (m := fun t => M.wrapErr t.names.name (match t.fragment with
        | some f => buildFragment L (run L m) m ctx f
        | none => .pure [])) (sem := fun r => child (rowBuilder r))
    (post := fun c q => some q)
    (fun c _ hk => if_pos (Decidable.not_not.1 (of_decide_eq_false hk))) (fun c _ hk => if_neg (of_decide_eq_true hk))
    (fun r hr _ ps s log hs hK => SimAt.wrap _ (by
      have := (h (m + 1) (by omega) ctx hb _ (List.mem_map_of_mem hr)).at hs hK
      have e : run L (m + 1) ctx (.build (rowBuilder r)) s = (match r.fragment with
        | some f => buildFragment L (run L m) m ctx f
        | none => M.pure []) s := by
        unfold rowBuilder
        cases r.fragment <;> rfl
      rw [e] at this
      exact this)) ps s log hs hK
  refine SimAt.mapOut hcol ?_
  rintro ps l ds hmk ⟨hlen, ts, hts, rfl⟩
  have hts' : ((b.tableList.filter fun r => decide (¬ (b.distinct ∧ r.optional ∧ r.names ∉ deps))).zip ts).filterMap
      (fun p => some p.2) = ts := by
    have hl : ts.length = (b.tableList.filter fun r => decide (¬ (b.distinct ∧ r.optional ∧ r.names ∉ deps))).length := by
      rw [hts.1, List.length_map, hlen]
    rw [show (fun p : FromTable × Str => some p.2) = some ∘ Prod.snd from rfl, List.filterMap_eq_map, List.map_snd_zip]
    omega
  rw [hts']
  exact (rd_str ps _).append (hts.join _)

/-- The unions. -/
theorem union_sim {s0 : Store} {T : List QB} {g : List Str} {L : GoLib} {child : Builder → Sem} {N : Nat}
    {us : List Builder} (h : SimsL ⟨s0, memory T g⟩ L N child us) {m : Nat} (hm : N ≤ m) {ctx : Ctx}
    (hb : BuiltinCtx ctx) {ps : List Str} {s : St} {log : List Val}
    (hs : commitAll s0 log = some (ps, s.store)) {a u : List Nat} (hK : KeptMem T g a u s) :
    SimAt s0 (KeptMem T g a u) (fun ps t ds => RD ps t (unionDoc ds))
      ps log (buildUnion (run L m) ctx us s) (inTurn (us.map child) log) := by
  have hcol := collect_sim (s0 := s0) (K := KeptMem T g a u) (as := us) (keep := fun _ => true)
    (f := fun c => M.bind (run L m ctx (.build c)) fun q => .pure (if q = [] then none else some q))
    (m := fun c => run L m ctx (.build c)) (sem := child) (post := fun c q => if q = [] then none else some q)
    (fun c _ hk => by cases hk) (fun c _ hk => rfl)
    (fun c hc _ ps s log hs hK => (h m hm ctx hb c hc).at hs hK) ps s log hs hK
  rw [List.filter_eq_self.2 (by simp)] at hcol
  refine SimAt.mapOut hcol ?_
  rintro ps l ds hmk ⟨hlen, ts, hts, rfl⟩
  have e : (us.zip ts).filterMap (fun p => if p.2 = [] then none else some p.2) = ts.filter (· ≠ []) := by
    have hl : ts.length = us.length := by rw [hts.1, List.length_map, hlen]
    clear hcol hts hlen hs h
    induction ts generalizing us with
    | nil => simp
    | cons t ts ih =>
      cases us with
      | nil => simp at hl
      | cons x us =>
        have := ih (us := us) (by simpa using hl)
        rw [List.zip_cons_cons, List.filterMap_cons]
        by_cases ht : t = []
        · rw [if_pos ht, List.filter_cons_of_neg (by simp [ht])]; exact this
        · rw [if_neg ht, List.filter_cons_of_pos (by simp [ht]), this]
  rw [e]
  exact ((rd_str ps _).append ((hts.filter hmk).join _)).append (rd_str ps _)

/-! ## The query -/

/-- A query builder stored. -/
def putQB (s : St) (r : Nat) (b : QB) : St := { s with heap := s.heap.set r b }

theorem modifyQB_put {r : Nat} {b b' : QB} {s : St} (h : s.heap[r]? = some b) {f : QB → QB} (hb : f b = b')
    (k : Unit → M α) : M.bind (modifyQB r f) k s = k () (putQB s r b') := by
  rw [modifyQB_bind h, hb]; rfl

theorem KeptMem.put {T : List QB} {g : List Str} {a u : List Nat} {s : St} (h : KeptMem T g a u s) (r : Nat) {b b' : QB}
    (hb : SelectsOnly b b') : KeptMem (T.set r b) g a u (putQB s r b') := h.set r hb

theorem putQB_get {s : St} {r : Nat} {b b' : QB} (h : s.heap[r]? = some b) : (putQB s r b').heap[r]? = some b' := by
  show (s.heap.set r b')[r]? = some b'
  rw [List.getElem?_set_self (List.getElem?_eq_some_iff.1 h).1]

theorem withPrefix_frags (f : Fragment) (p : Str) : (f.withPrefix p).frags = f.frags := by cases f; rfl

theorem appendFragments_frags (f : Fragment) (bs : List Builder) : (f.appendFragments bs).frags = f.frags ++ bs := by
  cases f; rfl

/-- The ORDER BY clause. -/
theorem orders_sim {s0 : Store} {T : List QB} {g : List Str} {L : GoLib} {child : Builder → Sem} {N : Nat} {r : Nat}
    {b : QB} (hr : T[r]? = some b)
    (h : SimsL ⟨s0, memory (T.set r (afterOrders b)) g⟩ L N child (orderBuilders b.distinct 1 b.orders))
    {m : Nat} (hm : N + 60 + (orderBuilders b.distinct 1 b.orders).length ≤ m) {ctx : Ctx}
    (hb : BuiltinCtx ctx) {ps : List Str} {s : St} {log : List Val}
    (hs : commitAll s0 log = some (ps, s.store)) {a u : List Nat} (hK : KeptMem T g a u s) :
    SimAt s0 (KeptMem (T.set r (afterOrders b)) g a u)
      (fun ps t ds => RDs ps (nonEmpty t) (clauseDocs (lit "ORDER BY") (listedDoc (lit ", ") ds)))
      ps log (buildOrders L (run L m) m ctx r s) (inList ((orderBuilders b.distinct 1 b.orders).map child) log) := by
  obtain ⟨p, hg⟩ := hK.get hr
  unfold buildOrders
  rw [getQB_bind hg]
  dsimp only
  rw [modifyQB_put (b' := { afterOrders b with selects := b.selects.withPrefix p }) hg rfl]
  have hK2 := hK.put r (b := afterOrders b) (b' := { afterOrders b with selects := b.selects.withPrefix p }) ⟨p, rfl⟩
  have e : ((Fragment.F (joinRaw ", ")).withPrefix (lit "ORDER BY")).appendFragments (orderItems b.distinct 0 b.orders).1
      = .mk (joinRaw ", ") [] (orderBuilders b.distinct 1 b.orders) (lit "ORDER BY") [] := by
    rw [(orderItems_eq b.distinct 0 b.orders).1]; rfl
  rw [e]
  refine SimAt.mono (list_sim (s := putQB s r _) h (.inl rfl) hm hb hs hK2) (fun _ h => h) ?_
  intro ps t ds hmk ht
  rw [listedDoc, ← clauseDocs_decorate _ (by simp [lit])]
  exact ht.nonEmpty hmk

theorem M.bind_assoc {α β γ : Type} (m : M α) (f : α → M β) (k : β → M γ) :
    M.bind (M.bind m f) k = M.bind m fun a => M.bind (f a) k := by
  funext s
  unfold M.bind
  rcases m s with ⟨o, s'⟩
  cases o <;> rfl

/-- … with the keyword for the SELECT clause. -/
def selectedQB (b : QB) (p : Str) : QB :=
  { b with selects := (b.selects.withPrefix p).withPrefix (if b.distinct then lit "SELECT DISTINCT" else lit "SELECT") }

/-- The SELECT clause. -/
theorem selects_sim {s0 : Store} {T : List QB} {g : List Str} {L : GoLib} {child : Builder → Sem} {N : Nat} {r : Nat}
    {b : QB} (hr : T[r]? = some b) {p0 : Str} (hsel : b.selects = .mk (joinRaw ", ") [] b.selects.frags p0 [])
    (htch : b.touches = .mk (joinRaw ", ") [] b.touches.frags [] [])
    (h1 : SimsL ⟨s0, memory T g⟩ L N child b.selects.frags)
    (h2 : SimsL ⟨s0, memory T g⟩ L N child b.touches.frags)
    {m : Nat} (hm1 : N + 60 + b.selects.frags.length ≤ m) (hm2 : N + 60 + b.touches.frags.length ≤ m) {ctx : Ctx}
    (hb : BuiltinCtx ctx) {ps : List Str} {s : St} {log : List Val}
    (hs : commitAll s0 log = some (ps, s.store)) {a u : List Nat} (hK : KeptMem T g a u s) {α β : Type}
    {k : Str → M α} {c : List Doc → List Doc → SemOf β} {K' : St → Prop} {R' : List Str → α → β → Prop}
    (hK' : ∀ s, KeptMem T g a u s → K' s)
    (hk : ∀ ps1 s1 log1 t ss xs, ps <+: ps1 → commitAll s0 log1 = some (ps1, s1.store) → KeptMem T g a u s1 →
      RD ps1 t (DocParts.selectDoc ⟨[], b.distinct, ss, xs, [], [], [], [], 0, 0, none⟩) →
      SimAt s0 K' R' ps1 log1 (k t s1) (c ss xs log1)) :
    SimAt s0 K' R' ps log (M.bind (buildSelects L (run L m) m ctx r) k s)
      (SemOf.bind (inList (b.selects.frags.map child)) (fun ss =>
        SemOf.bind (inList (b.touches.frags.map child)) fun xs =>
          if listedDoc (lit ", ") ss = [] then SemOf.fail .error else c ss xs) log) := by
  obtain ⟨p, hg⟩ := hK.get hr
  have e : M.bind (buildSelects L (run L m) m ctx r) k s =
      M.bind (buildFragment L (run L m) m ctx (.mk (joinRaw ", ") [] b.selects.frags
          (if b.distinct then lit "SELECT DISTINCT" else lit "SELECT") []))
        (fun sel => M.bind (getQB r) fun b => M.bind (buildFragment L (run L m) m ctx b.touches) fun touches =>
          M.bind (if sel = [] then .err .noColumns
            else .pure (if touches = [] then sel else sel ++ lit ", " ++ touches)) k)
        (putQB s r (selectedQB b p)) := by
    have e1 : ∀ s, M.bind (buildSelects L (run L m) m ctx r) k s =
        M.bind (modifyQB r fun b =>
          let prefix_ := if b.distinct then lit "SELECT DISTINCT" else lit "SELECT"
          { b with selects := b.selects.withPrefix prefix_ }) (fun _ =>
        M.bind (getQB r) fun b =>
        M.bind (buildFragment L (run L m) m ctx b.selects) fun sel =>
        M.bind (getQB r) fun b => M.bind (buildFragment L (run L m) m ctx b.touches) fun touches =>
          M.bind (if sel = [] then .err .noColumns
            else .pure (if touches = [] then sel else sel ++ lit ", " ++ touches)) k) s := by
      intro s
      unfold buildSelects
      simp only [M.bind_assoc]
    rw [e1, modifyQB_put (b' := selectedQB b p) hg rfl]
    rw [getQB_bind (putQB_get hg)]
    have : (selectedQB b p).selects = .mk (joinRaw ", ") [] b.selects.frags
        (if b.distinct then lit "SELECT DISTINCT" else lit "SELECT") [] := by
      unfold selectedQB
      dsimp only
      generalize hf : b.selects.frags = fs at hsel
      rw [hsel]; rfl
    rw [this]
  rw [e]
  have hK1 : KeptMem T g a u (putQB s r (selectedQB b p)) := by
    have := hK.put r (b := b) (b' := selectedQB b p) ⟨_, by unfold selectedQB; rw [withPrefix_withPrefix]⟩
    rwa [set_self hr] at this
  refine SimAt.bind (list_sim (s := putQB s r _) h1 (.inl rfl) hm1 hb hs hK1) hK' ?_
  intro ps1 s1 log1 t ss hp1 hs1 hK1 ht
  obtain ⟨p', hg'⟩ := hK1.get hr
  rw [getQB_bind hg']
  dsimp only
  rw [htch]
  refine SimAt.bind (list_sim h2 (.inl rfl) hm2 hb hs1 hK1) hK' ?_
  intro ps2 s2 log2 t' xs hp2 hs2 hK2 ht'
  have hmk := commitAll_marks hs2
  have ht := ht.mono hp2
  have hnil : t = [] ↔ listedDoc (lit ", ") ss = [] := by
    rw [ht.nil_iff hmk]
    unfold decorateDoc listedDoc
    generalize trimDoc (joinDocs (lit ", ") (ss.filter (· ≠ []))) = d
    by_cases hd : d = [] <;> simp [hd]
  by_cases hd : listedDoc (lit ", ") ss = []
  · rw [if_pos hd, if_pos (hnil.2 hd)]
    exact ⟨ps2, List.prefix_rfl, List.prefix_rfl, hs2, hK' _ hK2, rfl⟩
  · rw [if_neg hd, if_neg fun h => hd (hnil.1 h)]
    refine hk ps2 s2 log2 _ ss xs (hp1.trans hp2) hs2 hK2 ?_
    unfold DocParts.selectDoc
    dsimp only
    have e1 : decorateDoc (if b.distinct then lit "SELECT DISTINCT" else lit "SELECT") []
        (joinDocs (lit ", ") (ss.filter (· ≠ []))) =
        Doc.ofStr (if b.distinct then lit "SELECT DISTINCT" else lit "SELECT") ++ Doc.ofStr (lit " ")
          ++ listedDoc (lit ", ") ss := by
      unfold decorateDoc
      unfold listedDoc at hd
      rw [if_neg hd, if_neg (by split <;> simp [lit]), if_pos rfl, List.append_nil]
      rfl
    have e2 : decorateDoc [] [] (joinDocs (lit ", ") (xs.filter (· ≠ []))) = listedDoc (lit ", ") xs := by
      unfold decorateDoc listedDoc
      split
      · rename_i h; rw [h]
      · simp
    rw [e1] at ht
    rw [e2] at ht'
    have := RD.ite hmk ht' ht (ht.append ((rd_str ps2 (lit ", ")).append ht'))
    rw [← List.append_assoc t] at this
    by_cases hx : listedDoc (lit ", ") xs = []
    · rw [if_pos hx] at this ⊢
      rw [List.append_nil]
      exact this
    · rw [if_neg hx] at this ⊢
      exact this

/-- A clause of a query (WHERE, GROUP BY). -/
theorem qbClause_sim {s0 : Store} {T : List QB} {g : List Str} {L : GoLib} {child : Builder → Sem} {N : Nat}
    {bs : List Builder} (h : SimsL ⟨s0, memory T g⟩ L N child bs) {sep : String} (hsep : sep = ", " ∨ sep = " AND ")
    {kw : Str} (hkw : kw ≠ []) {f : Fragment} (hf : f = .mk (joinRaw sep) [] bs kw []) {m : Nat}
    (hm : N + 60 + bs.length ≤ m) {ctx : Ctx} (hb : BuiltinCtx ctx)
    {ps : List Str} {s : St} {log : List Val} (hs : commitAll s0 log = some (ps, s.store)) {a u : List Nat}
    (hK : KeptMem T g a u s) :
    SimAt s0 (KeptMem T g a u) (fun ps t ds => RDs ps (nonEmpty t) (clauseDocs kw (listedDoc (lit sep) ds)))
      ps log (buildFragment L (run L m) m ctx f s) (inList (bs.map child) log) := by
  rw [hf]
  refine SimAt.mono (list_sim h hsep hm hb hs hK) (fun _ h => h) ?_
  intro ps t ds hmk ht
  rw [listedDoc, ← clauseDocs_decorate _ hkw]
  exact ht.nonEmpty hmk

/-- The parts of a query put together. -/
theorem query_rd {ps : List Str} (hm : Marks ps) (q : DocParts) {w sel fr wh gr ord : Str}
    (h1 : RDs ps (nonEmpty w) (clauseDocs (lit "With") (joinDocs (lit ", ") ((q.ctes.filter (·.2 ≠ [])).map cteDoc))))
    (h2 : RD ps sel q.selectDoc) (h3 : RD ps fr (Doc.ofStr (lit "FROM ") ++ joinDocs (lit " ") q.tables))
    (h4 : RDs ps (nonEmpty wh) (clauseDocs (lit "WHERE") (listedDoc (lit " AND ") q.where_)))
    (h5 : RDs ps (nonEmpty gr) (clauseDocs (lit "GROUP BY") (listedDoc (lit ", ") q.groupBy)))
    (h6 : RDs ps (nonEmpty ord) (clauseDocs (lit "ORDER BY") (listedDoc (lit ", ") q.orderBy))) :
    RD ps (trimSpace (strJoin (lit " ") (nonEmpty w ++ [sel] ++ nonEmpty fr ++ nonEmpty wh ++ nonEmpty gr
      ++ nonEmpty ord ++ (if q.limit > 0 then [lit "LIMIT " ++ itoa q.limit] else [])
      ++ (if q.offset > 0 then [lit "OFFSET " ++ itoa q.offset] else []))))
      (trimDoc (joinDocs (lit " ") q.clauses)) := by
  refine RD.trim hm (RDs.join _ ?_)
  have h3' : RDs ps (nonEmpty fr) [Doc.ofStr (lit "FROM ") ++ joinDocs (lit " ") q.tables] := by
    have := h3.nonEmpty hm
    rwa [if_neg (by simp [Doc.ofStr, lit])] at this
  unfold DocParts.clauses
  refine (((((((h1.append h2.single).append h3').append h4).append h5).append h6).append ?_).append ?_)
  · split
    · exact ((rd_str ps _).append (rd_str ps _)).single
    · exact rds_nil ps
  · split
    · exact ((rd_str ps _).append (rd_str ps _)).single
    · exact rds_nil ps

/-- The end of a query: unions. -/
theorem finish_sim {s0 : Store} {T : List QB} {g : List Str} {L : GoLib} {child : Builder → Sem} {N : Nat}
    {b : QB} (h : SimsL ⟨s0, memory T g⟩ L N child b.unions) {m : Nat} (hm : N ≤ m) {ctx : Ctx}
    (hb : BuiltinCtx ctx) {ps : List Str} {s : St} {log : List Val}
    (hs : commitAll s0 log = some (ps, s.store)) {a u : List Nat} (hK : KeptMem T g a u s)
    {query : Str} {d : Doc} (hq : RD ps query d) {sem : List Doc → Sem} (h0 : b.unions = [] → sem [] = SemOf.pure d)
    (h1 : ∀ us, b.unions ≠ [] → sem us = SemOf.pure (trimDoc (d ++ Doc.ofStr (lit " ") ++ unionDoc us)))
    {K' : St → Prop} (hK' : ∀ s, KeptMem T g a u s → K' s) {b' : QB} (hbu : b'.unions = b.unions) :
    SimAt s0 K' RD ps log
      ((if b'.unions.length > 0 then
          M.bind (buildUnion (run L m) ctx b'.unions) fun union =>
            .pure (trimSpace (query ++ lit " " ++ union))
        else M.pure query) s)
      (SemOf.bind (inTurn (b.unions.map child)) sem log) := by
  rw [hbu]
  by_cases hun : b.unions = []
  · rw [if_neg (by simp [hun]), hun]
    show SimAt _ _ _ _ _ _ (sem [] log)
    rw [h0 hun]
    exact SimAt.pure hs (hK' _ hK) hq
  · rw [if_pos (List.length_pos_iff.2 hun)]
    refine SimAt.bind (union_sim (us := b.unions) h hm hb hs hK) hK' ?_
    intro ps7 s7 log7 tu us hp7 hs7 hK7 hu
    rw [h1 us hun]
    refine SimAt.pure hs7 (hK' _ hK7) ?_
    exact RD.trim (commitAll_marks hs7) (((hq.mono hp7).append (rd_str _ _)).append hu)

/-- `buildInternal` without its last step, the debug output. -/
def buildCore (L : GoLib) (rec : Rec) (fuel : Nat) (ctx : Ctx) (r : Nat) : M Str :=
  M.bind (getQB r) fun b =>
  if b.errors.length ≠ 0 then .err (anyError b.errors)
  else
  M.bind (.ofOut b.collectDependencies) fun dep =>
  M.bind (buildCTEs rec ctx b dep) fun sq =>
  M.bind (getQB r) fun b =>
  M.bind (buildFrom L rec fuel ctx b dep) fun from_ =>
  M.bind (getQB r) fun b =>
  M.bind (buildFragment L rec fuel ctx b.conditions) fun where_ =>
  M.bind (getQB r) fun b =>
  M.bind (buildFragment L rec fuel ctx b.groupbys) fun groupby =>
  M.bind (buildOrders L rec fuel ctx r) fun order =>
  M.bind (getQB r) fun b =>
  let limit := if b.limit > 0 then [lit "LIMIT " ++ itoa b.limit] else []
  let offset := if b.offset > 0 then [lit "OFFSET " ++ itoa b.offset] else []
  M.bind (buildSelects L rec fuel ctx r) fun sel =>
  let clauses := nonEmpty sq ++ [sel] ++ nonEmpty from_ ++ nonEmpty where_ ++ nonEmpty groupby
    ++ nonEmpty order ++ limit ++ offset
  let query := trimSpace (strJoin (lit " ") clauses)
  M.bind (getQB r) fun b =>
  if b.unions.length > 0 then
      M.bind (buildUnion rec ctx b.unions) fun union =>
        .pure (trimSpace (query ++ lit " " ++ union))
    else .pure query

theorem M.bind_ite {α β : Type} {c : Prop} [Decidable c] (a b : M α) (k : α → M β) :
    M.bind (if c then a else b) k = if c then M.bind a k else M.bind b k := by
  split <;> rfl

theorem M.bind_err {α β : Type} (e : Err) (k : α → M β) : M.bind (.err e) k = .err e := rfl

theorem buildInternal_eq (L : GoLib) (rec : Rec) (fuel : Nat) (ctx : Ctx) (r : Nat) :
    buildInternal L rec fuel ctx r = M.bind (buildCore L rec fuel ctx r) fun query =>
      M.bind (getQB r) fun b => M.bind (if b.debug then debugLog L query else .pure ()) fun _ => .pure query := by
  unfold buildInternal buildCore
  simp only [M.bind_assoc, M.bind_ite, M.bind_err]

/-- The query builder at `r`, which is `b`, corresponds to the meaning of `b`, but for debug output. -/
theorem core_sim {s0 : Store} {T : List QB} {g : List Str} {L : GoLib} {child : Builder → Sem} {N : Nat} {r : Nat}
    {b : QB} (hr : T[r]? = some b) (hsh : ShapedQB b)
    (h1 : SimsL ⟨s0, memory T g⟩ L N child (allBuilders b))
    (h2 : SimsL ⟨s0, memory (T.set r (afterOrders b)) g⟩ L N child (allBuilders b))
    {m : Nat} (hm : N + 60 + (allBuilders b).length ≤ m) {ctx : Ctx}
    (hb : BuiltinCtx ctx) {ps : List Str} {s : St} {log : List Val}
    (hs : commitAll s0 log = some (ps, s.store)) {a u : List Nat} (hK : KeptMem T g a u s) :
    SimTo s0 (fun s => KeptMem T g a u s ∨ KeptMem (T.set r (afterOrders b)) g a u s)
      (KeptMem (T.set r (afterOrders b)) g a u) RD
      ps log (buildCore L (run L m) m ctx r s) (qbSem child b log) := by
  obtain ⟨p, hg⟩ := hK.get hr
  unfold buildCore qbSem
  rw [getQB_bind hg]
  dsimp only
  by_cases he : b.errors = []
  case neg =>
    rw [if_pos (by simpa using he), if_pos he]
    exact ⟨⟨ps, List.prefix_rfl, List.prefix_rfl, hs, .inl hK, rfl⟩, nofun⟩
  rw [if_neg (by simp [he]), if_neg (by simp [he])]
  have hdeps : QB.collectDependencies { b with selects := b.selects.withPrefix p } = b.collectDependencies :=
    selectsOnly_rel.deps ⟨p, rfl⟩
  rw [hdeps]
  have hoth := collectDependencies_other b
  have hoof := collectDependencies_not_oof b
  cases hc : b.collectDependencies with
  | oof => exact absurd hc hoof
  | err e =>
    rw [hc] at hoth
    exact ⟨⟨ps, List.prefix_rfl, List.prefix_rfl, hs, .inl hK, hoth⟩, nofun⟩
  | panic e =>
    rw [hc] at hoth
    exact ⟨⟨ps, List.prefix_rfl, List.prefix_rfl, hs, .inl hK, hoth⟩, nofun⟩
  | ok deps =>
  show SimTo _ _ _ _ _ _ (M.bind (buildCTEs (run L m) ctx b deps) _ s) ((requestOf b deps).sem child log)
  have hT2 : (T.set r (afterOrders b))[r]? = some (afterOrders b) := by
    rw [List.getElem?_set_self (List.getElem?_eq_some_iff.1 hr).1]
  have htf : (afterOrders b).touches.frags = b.touches.frags ++ orderColumns b.distinct 1 b.orders := by
    show (b.touches.appendFragments _).frags = _
    rw [appendFragments_frags, (orderItems_eq b.distinct 0 b.orders).2.1]
  have hlen := hm
  simp only [allBuilders, List.length_append] at hlen
  unfold Request.sem
  -- CTEs
  refine SimTo.bind (SimAt.to (ctes_sim (h1.mono (Nat.le_refl _) (by intro c hc; simp only [allBuilders, List.mem_append]; simp [hc]))
    (by omega) hb deps hs hK) (fun _ h => h) (fun _ h => h)) (fun _ h => .inl h) ?_
  intro ps1 s1 log1 tw qs hp1 hs1 hK1 hw
  -- FROM
  obtain ⟨q1, hg1⟩ := hK1.get hr
  rw [getQB_bind hg1]
  refine SimTo.bind (SimAt.to (from_sim (b := b) (h1.mono (Nat.le_refl _) (by intro c hc; simp only [allBuilders, List.mem_append]; simp [hc]))
    (by omega) hb deps hs1 hK1) (fun _ h => h) (fun _ h => h)) (fun _ h => .inl h) ?_
  intro ps2 s2 log2 tf ts hp2 hs2 hK2 hf
  -- WHERE
  obtain ⟨q2, hg2⟩ := hK2.get hr
  rw [getQB_bind hg2]
  refine SimTo.bind (SimAt.to (qbClause_sim (f := b.conditions) (h1.mono (Nat.le_refl _) (by intro c hc; simp only [allBuilders, List.mem_append]; simp [hc]))
    (.inr rfl) (by simp [lit]) hsh.conditions (by omega) hb hs2 hK2) (fun _ h => h) (fun _ h => h)) (fun _ h => .inl h) ?_
  intro ps3 s3 log3 tc ws hp3 hs3 hK3 hwh
  -- GROUP BY
  obtain ⟨q3, hg3⟩ := hK3.get hr
  rw [getQB_bind hg3]
  refine SimTo.bind (SimAt.to (qbClause_sim (f := b.groupbys) (h1.mono (Nat.le_refl _) (by intro c hc; simp only [allBuilders, List.mem_append]; simp [hc]))
    (.inl rfl) (by simp [lit]) hsh.groupbys (by omega) hb hs3 hK3) (fun _ h => h) (fun _ h => h)) (fun _ h => .inl h) ?_
  intro ps4 s4 log4 tg gs hp4 hs4 hK4 hgr
  -- ORDER BY
  refine SimTo.bind (SimAt.to (orders_sim hr (h2.mono (Nat.le_refl _) (by intro c hc; simp only [allBuilders, List.mem_append]; simp [hc]))
    (by omega) hb hs4 hK4) (fun _ h => h) (fun _ h => h)) (fun _ h => .inr h) ?_
  intro ps5 s5 log5 to os hp5 hs5 hK5 hor
  obtain ⟨q5, hg5⟩ := hK5.get hT2
  rw [getQB_bind hg5]
  dsimp only
  -- SELECT
  have hreq : (requestOf b deps).touches = (afterOrders b).touches.frags := htf.symm
  rw [hreq]
  refine SimAt.to (K := KeptMem (T.set r (afterOrders b)) g a u) (selects_sim (b := afterOrders b) hT2 hsh.selects.choose_spec ?_
    (h2.mono (Nat.le_refl _) (by intro c hc; change c ∈ b.selects.frags at hc; simp only [allBuilders, List.mem_append]; simp [hc]))
    (h2.mono (Nat.le_refl _) (by intro c hc; rw [htf] at hc; simp only [allBuilders, List.mem_append]; simp at hc; rcases hc with hc | hc <;> simp [hc]))
    (by show N + 60 + b.selects.frags.length ≤ m; omega)
    (by rw [htf, List.length_append]; omega) hb hs5 hK5 (fun _ h => h) ?_) (fun _ h => .inr h) (fun _ h => h)
  · show b.touches.appendFragments _ = .mk _ _ (b.touches.appendFragments _).frags _ _
    rw [appendFragments_frags]
    generalize hx : b.touches.frags = fs
    rw [hsh.touches, hx]; rfl
  intro ps6 s6 log6 tsel ss xs hp6 hs6 hK6 hse
  -- UNION
  obtain ⟨q6, hg6⟩ := hK6.get hT2
  rw [getQB_bind hg6]
  have hq (us : Option (List Doc)) := query_rd (commitAll_marks hs6)
    { ctes := ((requestOf b deps).ctes.map (·.name)).zip qs, distinct := b.distinct, select := ss, touches := xs,
      tables := ts, where_ := ws, groupBy := gs, orderBy := os, limit := b.limit, offset := b.offset, unions := us }
    (hw.mono (hp2.trans (hp3.trans (hp4.trans (hp5.trans hp6))))) hse
    (hf.mono (hp3.trans (hp4.trans (hp5.trans hp6)))) (hwh.mono (hp4.trans (hp5.trans hp6)))
    (hgr.mono (hp5.trans hp6)) (hor.mono hp6)
  exact finish_sim (b := afterOrders b) (m := m) (sem := fun us => SemOf.pure (DocParts.doc
    { ctes := ((requestOf b deps).ctes.map (·.name)).zip qs, distinct := b.distinct, select := ss, touches := xs,
      tables := ts, where_ := ws, groupBy := gs, orderBy := os, limit := b.limit, offset := b.offset,
      unions := if b.unions = [] then none else some us }))
    (h2.mono (Nat.le_refl _) (by intro c hc; change c ∈ b.unions at hc; simp only [allBuilders, List.mem_append]; simp [hc]))
    (by omega) hb hs6 hK6 (hq none) (fun h => by change b.unions = [] at h; rw [if_pos h]; rfl)
    (fun us h => by change b.unions ≠ [] at h; rw [if_neg h]; rfl) (fun _ h => h) rfl

end Sqlf

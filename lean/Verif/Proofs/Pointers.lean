import Verif.Proofs.Memory
import Verif.Proofs.SemRel
/-!
# Lemmas: pointers to fragments against copies
-/

namespace Sqlf

open Spec

/-- The pointers in the fragments `objs`. -/
def Within (objs : List PFragment) (used : List Nat) : Prop := ∀ (p : Nat) (o : PFragment), objs[p]? = some o → ∀ q ∈ pointersL o.frags, q ∈ used

/-- No fragment that is used is changed. -/
def Same (used : List Nat) (objs objs' : List PFragment) : Prop := ∀ q ∈ used, objs'[q]? = objs[q]?

mutual
theorem MeansB.frame {objs objs' used} (hw : Within objs used) (hs : Same used objs objs') :
    ∀ {c b}, MeansB objs c b → (∀ q ∈ pointersB c, q ∈ used) → MeansB objs' c b
  | _, _, .plain b, _ => .plain b
  | _, _, .ptr h, hu => .ptr (MeansF.frame hw hs h (hu _ (by simp [pointersB])))
  | _, _, .column h, hu => .column (MeansF.frame hw hs h (hu _ (by simp [pointersB])))
  | _, _, .cond h, hu => .cond (MeansB.frame hw hs h hu)
theorem MeansF.frame {objs objs' used} (hw : Within objs used) (hs : Same used objs objs') :
    ∀ {p f}, MeansF objs p f → p ∈ used → MeansF objs' p f
  | p, _, .mk ho hl, hu => .mk (by rw [hs p hu, ho]) (MeansL.frame hw hs hl (hw p _ ho))
theorem MeansL.frame {objs objs' used} (hw : Within objs used) (hs : Same used objs objs') :
    ∀ {cs bs}, MeansL objs cs bs → (∀ q ∈ pointersL cs, q ∈ used) → MeansL objs' cs bs
  | _, _, .nil, _ => .nil
  | _, _, .cons h1 h2, hu => .cons (MeansB.frame hw hs h1 fun q hq => hu q (by simp only [pointersL, List.flatMap_cons, List.mem_append]; exact .inl hq))
      (MeansL.frame hw hs h2 fun q hq => hu q (by simp only [pointersL, List.flatMap_cons, List.mem_append]; exact .inr hq))
end

theorem copyB_means {objs : List PFragment} {env : List Fragment} (h : ∀ (p : Nat) (f : Fragment), env[p]? = some f → MeansF objs p f) :
    ∀ {c b}, copyB env c = some b → MeansB objs c b
  | .plain b, _, e => by cases e; exact .plain b
  | .ptr p, _, e => by
    simp only [copyB, Option.map_eq_some_iff] at e
    obtain ⟨f, hf, rfl⟩ := e
    exact .ptr (h p f hf)
  | .column t p, _, e => by
    simp only [copyB, Option.map_eq_some_iff] at e
    obtain ⟨f, hf, rfl⟩ := e
    exact .column (h p f hf)
  | .cond raw args c, _, e => by
    simp only [copyB, Option.map_eq_some_iff] at e
    obtain ⟨f, hf, rfl⟩ := e
    exact .cond (copyB_means h hf)

theorem copyL_means {objs : List PFragment} {env : List Fragment} (h : ∀ (p : Nat) (f : Fragment), env[p]? = some f → MeansF objs p f) :
    ∀ {cs bs}, copyL env cs = some bs → MeansL objs cs bs
  | [], _, e => by cases e; exact .nil
  | c :: cs, bs, e => by
    simp only [copyL] at e
    split at e
    · next h1 h2 => cases e; exact .cons (copyB_means h h1) (copyL_means h h2)
    · cases e

theorem MeansL.app {objs : List PFragment} : ∀ {cs ds bs es}, MeansL objs cs bs → MeansL objs ds es → MeansL objs (cs ++ ds) (bs ++ es)
  | _, _, _, _, .nil, h => h
  | _, _, _, _, .cons h1 h2, h => .cons h1 (MeansL.app h2 h)

theorem Pointwise.app {R : α → β → Prop} : ∀ {as bs cs ds}, Pointwise R as bs → Pointwise R cs ds → Pointwise R (as ++ cs) (bs ++ ds)
  | _, _, _, _, .nil, h => h
  | _, _, _, _, .cons h1 h2, h => .cons h1 (Pointwise.app h2 h)

theorem Pointwise.setBoth {R : α → β → Prop} {a : α} {b : β} (hab : R a b) : ∀ {as bs}, Pointwise R as bs → ∀ i, Pointwise R (as.set i a) (bs.set i b)
  | _, _, .nil, _ => .nil
  | _, _, .cons _ h2, 0 => .cons hab h2
  | _, _, .cons h1 h2, _ + 1 => .cons h1 (Pointwise.setBoth hab h2 _)

theorem Pointwise.imp {R S : α → β → Prop} : ∀ {as bs}, Pointwise R as bs → (∀ a ∈ as, ∀ b, R a b → S a b) → Pointwise S as bs
  | _, _, .nil, _ => .nil
  | _, _, .cons h1 h2, h => .cons (h _ (by simp) _ h1) (Pointwise.imp h2 fun a ha b => h a (by simp [ha]) b)

/-- The pointer in the fragment of a table. -/
def pointersT : PTable → List Nat
  | .join _ p => [p]
  | _ => []

/-- All pointers in a query builder. -/
def pointersQ (b : PQB) : List Nat :=
  b.ctes.flatMap (fun c => pointersB c.2.1) ++ b.cells.flatMap (fun c => pointersT c.fragment) ++ pointersL b.selects ++
    pointersL b.conditions ++ b.orders.flatMap (fun c => pointersB c.1) ++ pointersL b.groupbys ++ pointersL b.unions

theorem mem_pointersQ {b : PQB} {q : Nat} : q ∈ pointersQ b ↔ (∃ c ∈ b.ctes, q ∈ pointersB c.2.1) ∨ (∃ c ∈ b.cells, q ∈ pointersT c.fragment) ∨
    q ∈ pointersL b.selects ∨ q ∈ pointersL b.conditions ∨ (∃ c ∈ b.orders, q ∈ pointersB c.1) ∨ q ∈ pointersL b.groupbys ∨ q ∈ pointersL b.unions := by
  simp only [pointersQ, List.mem_append, List.mem_flatMap, or_assoc]

theorem MeansT.frame {objs objs' used} (hw : Within objs used) (hs : Same used objs objs') :
    ∀ {t f}, MeansT objs t f → (∀ q ∈ pointersT t, q ∈ used) → MeansT objs' t f
  | _, _, .none, _ => .none
  | _, _, .from_ text, _ => .from_ text
  | _, _, .join h, hu => .join (MeansF.frame hw hs h (hu _ (by simp [pointersT])))

theorem MeansQ.frame {objs objs' used} (hw : Within objs used) (hs : Same used objs objs') {b q} (h : MeansQ objs b q) (hu : ∀ p ∈ pointersQ b, p ∈ used) :
    MeansQ objs' b q := by
  have hu' : ∀ {p}, _ → p ∈ used := fun {p} hp => hu p (mem_pointersQ.2 hp)
  obtain ⟨s1, h1, h1'⟩ := h.selects
  obtain ⟨s2, h2, h2'⟩ := h.conditions
  obtain ⟨s3, h3, h3'⟩ := h.groupbys
  exact
    { ctes := Pointwise.imp h.ctes fun c hc d ⟨e1, e2, e3⟩ => ⟨e1, e2, MeansB.frame hw hs e3 fun q hq => hu' (.inl ⟨c, hc, hq⟩)⟩
      cells := Pointwise.imp h.cells fun c hc d ⟨e1, e2, e3⟩ => ⟨e1, e2, MeansT.frame hw hs e3 fun q hq => hu' (.inr (.inl ⟨c, hc, hq⟩))⟩
      tables := h.tables
      tablesDict := h.tablesDict
      selects := ⟨s1, MeansL.frame hw hs h1 fun q hq => hu' (.inr (.inr (.inl hq))), h1'⟩
      touches := h.touches
      conditions := ⟨s2, MeansL.frame hw hs h2 fun q hq => hu' (.inr (.inr (.inr (.inl hq)))), h2'⟩
      orders := Pointwise.imp h.orders fun c hc d ⟨e1, e2⟩ => ⟨MeansB.frame hw hs e1 fun q hq => hu' (.inr (.inr (.inr (.inr (.inl ⟨c, hc, hq⟩))))), e2⟩
      groupbys := ⟨s3, MeansL.frame hw hs h3 fun q hq => hu' (.inr (.inr (.inr (.inr (.inr (.inl hq)))))), h3'⟩
      distinct := h.distinct, limit := h.limit, offset := h.offset
      unions := MeansL.frame hw hs h.unions fun q hq => hu' (.inr (.inr (.inr (.inr (.inr (.inr hq))))))
      errors := h.errors, debug := h.debug }

theorem copyB_bound {env : List Fragment} : ∀ {c b}, copyB env c = some b → ∀ q ∈ pointersB c, q < env.length
  | .plain b, _, _ => by simp [pointersB]
  | .ptr p, _, e => by
    simp only [copyB, Option.map_eq_some_iff] at e
    obtain ⟨f, hf, rfl⟩ := e
    simpa [pointersB] using (List.getElem?_eq_some_iff.1 hf).1
  | .column t p, _, e => by
    simp only [copyB, Option.map_eq_some_iff] at e
    obtain ⟨f, hf, rfl⟩ := e
    simpa [pointersB] using (List.getElem?_eq_some_iff.1 hf).1
  | .cond raw args c, _, e => by
    simp only [copyB, Option.map_eq_some_iff] at e
    obtain ⟨f, hf, rfl⟩ := e
    exact copyB_bound (c := c) hf

theorem copyL_bound {env : List Fragment} : ∀ {cs bs}, copyL env cs = some bs → ∀ q ∈ pointersL cs, q < env.length
  | [], _, _ => by simp [pointersL]
  | c :: cs, bs, e => by
    simp only [copyL] at e
    split at e
    · next h1 h2 =>
      intro q hq
      simp only [pointersL, List.flatMap_cons, List.mem_append] at hq
      rcases hq with hq | hq
      · exact copyB_bound h1 q hq
      · exact copyL_bound h2 q hq
    · cases e

/-- Outcomes that agree. -/
inductive SimOut (R : α → β → Prop) : Out α → Out β → Prop
  | ok {a b} : R a b → SimOut R (.ok a) (.ok b)
  | err (e) : SimOut R (.err e) (.err e)
  | panic (p) : SimOut R (.panic p) (.panic p)
  | oof : SimOut R .oof .oof

/-- A query builder with pointers among `used` and what it stands for. -/
def RQ (objs : List PFragment) (used : List Nat) (b : PQB) (q : QB) : Prop := MeansQ objs b q ∧ ∀ p ∈ pointersQ b, p ∈ used

theorem RQ.from_ {objs used b q} (h : RQ objs used b q) (t : TableAliased) : RQ objs used (b.from_ t) (q.from_ t) := by
  obtain ⟨h, hu⟩ := h
  have hl : b.cells.length = q.cells.length := by
    have := h.cells
    exact Pointwise.length this
  unfold PQB.from_ QB.from_
  split
  · refine ⟨{ h with errors := ?_ }, hu⟩
    simp only [PQB.pushError, QB.pushError, h.errors]
  · refine ⟨{ h with
      cells := Pointwise.app h.cells (.cons ⟨rfl, rfl, .from_ _⟩ .nil)
      tables := by simp only [h.tables, hl]
      tablesDict := by simp only [h.tablesDict, hl] }, fun p hp => hu p ?_⟩
    rw [mem_pointersQ] at hp ⊢
    simp only [List.mem_append, List.mem_singleton] at hp
    rcases hp with hp | ⟨c, hc | rfl, hp⟩ | hp
    · exact .inl hp
    · exact .inr (.inl ⟨c, hc, hp⟩)
    · simp [pointersT] at hp
    · exact .inr (.inr hp)

/-- `join` after the prefix was set. -/
theorem RQ.join {objs objs' used b q} (joinStr : Str) (t : TableAliased) (opt : Bool) (h : RQ objs' used b q) (p : Nat) (f : Fragment)
    (hn : t.name ≠ []) (hobjs : objs' = objs.modify p fun o => { o with pre := lit "ON" })
    (hf : MeansF objs' p (f.withPrefix (lit "ON"))) :
    SimOut (fun (x : List PFragment × PQB) q' => x.1 = objs' ∧ RQ objs' (used ++ [p]) x.2 q') (b.join objs joinStr t (some p) opt) (q.join joinStr t (some f) opt) := by
  have hmain : ∀ b q, RQ objs' used b q →
      SimOut (fun (x : List PFragment × PQB) q' => x.1 = objs' ∧ RQ objs' (used ++ [p]) x.2 q')
        (match (b.tablesDict.find? fun p => p.1 = t.appliedName).map (·.2) with
          | some ptr => .ok (objs', { b with cells := b.cells.set ptr ⟨t, .join (joinStr ++ lit " " ++ QB.tableAndAlias t ++ lit " #f1") p, opt⟩ })
          | none => .ok (objs', { b with
              cells := b.cells ++ [⟨t, .join (joinStr ++ lit " " ++ QB.tableAndAlias t ++ lit " #f1") p, opt⟩]
              tables := b.tables ++ [b.cells.length]
              tablesDict := (t.appliedName, b.cells.length) :: b.tablesDict }))
        (match q.dictGet t.appliedName with
          | some ptr => .ok { q with cells := q.cells.set ptr ⟨t, some (.Ff (joinStr ++ lit " " ++ QB.tableAndAlias t ++ lit " #f1") [.frag (f.withPrefix (lit "ON"))]), opt⟩ }
          | none => .ok { q with
              cells := q.cells ++ [⟨t, some (.Ff (joinStr ++ lit " " ++ QB.tableAndAlias t ++ lit " #f1") [.frag (f.withPrefix (lit "ON"))]), opt⟩]
              tables := q.tables ++ [q.cells.length]
              tablesDict := (t.appliedName, q.cells.length) :: q.tablesDict }) := by
    rintro b q ⟨h, hu⟩
    have hl : b.cells.length = q.cells.length := Pointwise.length h.cells
    have hcell : (fun (c : PFromTable) (d : FromTable) => c.names = d.names ∧ c.optional = d.optional ∧ MeansT objs' c.fragment d.fragment)
        ⟨t, .join (joinStr ++ lit " " ++ QB.tableAndAlias t ++ lit " #f1") p, opt⟩
        ⟨t, some (.Ff (joinStr ++ lit " " ++ QB.tableAndAlias t ++ lit " #f1") [.frag (f.withPrefix (lit "ON"))]), opt⟩ :=
      ⟨rfl, rfl, .join hf⟩
    have hd : ((b.tablesDict.find? fun p => p.1 = t.appliedName).map (·.2)) = q.dictGet t.appliedName := by rw [h.tablesDict]; rfl
    rw [hd]
    cases q.dictGet t.appliedName with
    | some ptr =>
      refine .ok ⟨rfl, { h with cells := Pointwise.setBoth (by exact hcell) h.cells ptr }, fun r hr => ?_⟩
      rw [mem_pointersQ] at hr
      rw [List.mem_append]
      rcases hr with hr | ⟨c, hc, hr⟩ | hr
      · exact .inl (hu r (mem_pointersQ.2 (.inl hr)))
      · rcases List.mem_or_eq_of_mem_set hc with hc | rfl
        · exact .inl (hu r (mem_pointersQ.2 (.inr (.inl ⟨c, hc, hr⟩))))
        · exact .inr hr
      · exact .inl (hu r (mem_pointersQ.2 (.inr (.inr hr))))
    | none =>
      refine .ok ⟨rfl, { h with
        cells := Pointwise.app h.cells (.cons hcell .nil)
        tables := by simp only [h.tables, hl]
        tablesDict := by simp only [hl, h.tablesDict] }, fun r hr => ?_⟩
      rw [mem_pointersQ] at hr
      rw [List.mem_append]
      rcases hr with hr | ⟨c, hc, hr⟩ | hr
      · exact .inl (hu r (mem_pointersQ.2 (.inl hr)))
      · rcases List.mem_append.1 hc with hc | hc
        · exact .inl (hu r (mem_pointersQ.2 (.inr (.inl ⟨c, hc, hr⟩))))
        · rw [List.mem_singleton] at hc
          subst hc
          exact .inr hr
      · exact .inl (hu r (mem_pointersQ.2 (.inr (.inr hr))))
  unfold PQB.join QB.join
  rw [if_neg hn, if_neg hn]
  have ht := h.1.tables
  have hl : b.cells.length = q.cells.length := Pointwise.length h.1.cells
  by_cases he : q.tables.length = 0
  · have hb : b.tables.length = 0 := by rw [ht]; exact he
    simp only [hb, he, if_true]
    rw [← hobjs]
    refine hmain { b with cells := b.cells ++ [⟨⟨[], []⟩, .none, false⟩], tables := b.tables ++ [b.cells.length] }
      { q with cells := q.cells ++ [⟨⟨[], []⟩, none, false⟩], tables := q.tables ++ [q.cells.length] } ⟨{ h.1 with
      cells := Pointwise.app h.1.cells (.cons ⟨rfl, rfl, .none⟩ .nil)
      tables := by simp only [hl, ht] }, fun r hr => h.2 r ?_⟩
    rw [mem_pointersQ] at hr ⊢
    simp only [List.mem_append, List.mem_singleton] at hr
    rcases hr with hr | ⟨c, hc | rfl, hr⟩ | hr
    · exact .inl hr
    · exact .inr (.inl ⟨c, hc, hr⟩)
    · simp [pointersT] at hr
    · exact .inr (.inr hr)
  · have hb : ¬b.tables.length = 0 := by rw [ht]; exact he
    simp only [hb, he, if_false]
    rw [← hobjs]
    exact hmain _ _ h

/-! ## calls -/

theorem pointersL_append (cs ds : List PBuilder) : pointersL (cs ++ ds) = pointersL cs ++ pointersL ds := by
  simp [pointersL]

theorem pointersL_single (c : PBuilder) : pointersL [c] = pointersB c := by
  simp [pointersL]

/-- The fragments after a call. -/
def prefixed (c : PCall) (objs : List PFragment) : List PFragment :=
  match onFragment c with
  | some p => objs.modify p fun o => { o with pre := lit "ON" }
  | none => objs

/-- The copies after a call. -/
def prefixedV (c : PCall) (env : List Fragment) : List Fragment :=
  match onFragment c with
  | some p => env.modify p (·.withPrefix (lit "ON"))
  | none => env

theorem RQ.weaken {objs used b q} (h : RQ objs used b q) (more : List Nat) : RQ objs (used ++ more) b q :=
  ⟨h.1, fun p hp => List.mem_append.2 (.inl (h.2 p hp))⟩

theorem cond_sim {objs used b q} (h : RQ objs used b q) (c : PBuilder) (d : Builder) (hc : MeansB objs c d) :
    RQ objs (used ++ pointersB c) { b with conditions := b.conditions ++ [c] } { q with conditions := q.conditions.appendFragments [d] } := by
  refine ⟨{ h.1 with conditions := ?_ }, fun r hr => ?_⟩
  · obtain ⟨bs, h1, h2⟩ := h.1.conditions
    exact ⟨_, MeansL.app h1 (.cons hc .nil), by simp only [h2]; rfl⟩
  · rw [mem_pointersQ] at hr
    rw [List.mem_append]
    simp only [pointersL_append, List.mem_append, pointersL_single] at hr
    rcases hr with hr | hr | hr | (hr | hr) | hr
    · exact .inl (h.2 r (mem_pointersQ.2 (.inl hr)))
    · exact .inl (h.2 r (mem_pointersQ.2 (.inr (.inl hr))))
    · exact .inl (h.2 r (mem_pointersQ.2 (.inr (.inr (.inl hr)))))
    · exact .inl (h.2 r (mem_pointersQ.2 (.inr (.inr (.inr (.inl hr))))))
    · exact .inr hr
    · exact .inl (h.2 r (mem_pointersQ.2 (.inr (.inr (.inr (.inr hr))))))

theorem whereIn_sim {objs used b q} (h : RQ objs used b q) (op : Str) (c : PBuilder) (d : Builder) (hc : MeansB objs c d) (v : Val) :
    SimOut (fun b' q' => RQ objs (used ++ pointersB c) b' q') (b.whereInOp op c v) (q.whereInOp op d v) := by
  unfold PQB.whereInOp QB.whereInOp
  cases argsFlatted [v] with
  | err e => exact .err e
  | panic p => exact .panic p
  | oof => exact .oof
  | ok args => exact .ok (cond_sim h (.cond _ args c) _ (.cond hc))

theorem join_empty {objs : List PFragment} {b : PQB} {q : QB} (js : Str) (t : TableAliased) (on : Option Nat) (f : Option Fragment) (opt : Bool) (hn : t.name = []) :
    b.join objs js t on opt = .ok (objs, b.pushError (.builder (lit "join table name is empty"))) ∧
      q.join js t f opt = .ok (q.pushError (.builder (lit "join table name is empty"))) := by
  unfold PQB.join QB.join
  rw [if_pos hn, if_pos hn]
  exact ⟨rfl, rfl⟩

theorem pjoin_nil {objs : List PFragment} {b : PQB} {q : QB} (js : Str) (t : TableAliased) (opt : Bool) (hn : t.name ≠ []) :
    b.join objs js t none opt = .panic .nilDereference ∧ q.join js t none opt = .panic .nilDereference := by
  unfold PQB.join QB.join
  rw [if_neg hn, if_neg hn]
  exact ⟨rfl, rfl⟩

theorem joinCall_apply (k : JoinKind) (t : TableAliased) (f : Option Fragment) (q : QB) :
    (copyCall.joinCall k t f).apply q = q.join k.text t f k.optional := by cases k <;> rfl

theorem RQ.error {objs used b q} (h : RQ objs used b q) (e : Err) : RQ objs used (b.pushError e) (q.pushError e) := by
  refine ⟨{ h.1 with errors := ?_ }, h.2⟩
  simp only [PQB.pushError, QB.pushError, h.1.errors]

theorem pcall_sim {objs : List PFragment} {env : List Fragment} {used b q} (c : PCall) {c' : Call}
    (hm : ∀ (p : Nat) (f : Fragment), (prefixedV c env)[p]? = some f → MeansF (prefixed c objs) p f)
    (h : RQ (prefixed c objs) used b q) (hc : copyCall env c = some c') :
    SimOut (fun (x : List PFragment × PQB) q' => x.1 = prefixed c objs ∧ RQ (prefixed c objs) (used ++ usedByCall c) x.2 q')
      (c.run objs b) (c'.apply q) := by
  cases c with
  | distinct =>
    cases hc
    exact .ok ⟨rfl, { h.1 with distinct := rfl }, (h.weaken []).2⟩
  | limit n =>
    cases hc
    refine .ok ⟨rfl, ?_⟩
    simp only [QB.setLimit]
    split
    · exact ⟨{ h.1 with limit := rfl }, (h.weaken []).2⟩
    · exact h.weaken []
  | offset n =>
    cases hc
    refine .ok ⟨rfl, ?_⟩
    simp only [QB.setOffset]
    split
    · exact ⟨{ h.1 with offset := rfl }, (h.weaken []).2⟩
    · exact h.weaken []
  | debug =>
    cases hc
    exact .ok ⟨rfl, { h.1 with debug := rfl }, (h.weaken []).2⟩
  | select cs =>
    simp only [copyCall, Option.map_eq_some_iff] at hc
    obtain ⟨bs, hbs, rfl⟩ := hc
    have hl : MeansL objs cs bs := copyL_means hm hbs
    refine .ok ⟨rfl, ?_⟩
    have hlen : cs.length = 0 ↔ bs.length = 0 := by
      cases hl <;> simp
    simp only [QB.select]
    by_cases h0 : cs.length = 0
    · rw [if_pos h0, if_pos (hlen.1 h0)]
      exact h.weaken _
    · rw [if_neg h0, if_neg (fun e => h0 (hlen.2 e))]
      refine ⟨{ h.1 with selects := ⟨bs, hl, ?_⟩ }, fun r hr => ?_⟩
      · obtain ⟨_, -, h2⟩ := h.1.selects
        simp only [h2]; rfl
      · rw [mem_pointersQ] at hr
        rw [List.mem_append]
        rcases hr with hr | hr | hr | hr
        · exact .inl (h.2 r (mem_pointersQ.2 (.inl hr)))
        · exact .inl (h.2 r (mem_pointersQ.2 (.inr (.inl hr))))
        · exact .inr hr
        · exact .inl (h.2 r (mem_pointersQ.2 (.inr (.inr (.inr hr)))))
  | groupBy cs =>
    simp only [copyCall, Option.map_eq_some_iff] at hc
    obtain ⟨bs, hbs, rfl⟩ := hc
    have hl : MeansL objs cs bs := copyL_means hm hbs
    refine .ok ⟨rfl, { h.1 with groupbys := ?_ }, fun r hr => ?_⟩
    · obtain ⟨ds, h1, h2⟩ := h.1.groupbys
      exact ⟨_, MeansL.app h1 hl, by simp only [QB.groupBy, h2]; rfl⟩
    · rw [mem_pointersQ] at hr
      rw [List.mem_append]
      simp only [pointersL_append, List.mem_append] at hr
      rcases hr with hr | hr | hr | hr | hr | (hr | hr) | hr
      · exact .inl (h.2 r (mem_pointersQ.2 (.inl hr)))
      · exact .inl (h.2 r (mem_pointersQ.2 (.inr (.inl hr))))
      · exact .inl (h.2 r (mem_pointersQ.2 (.inr (.inr (.inl hr)))))
      · exact .inl (h.2 r (mem_pointersQ.2 (.inr (.inr (.inr (.inl hr))))))
      · exact .inl (h.2 r (mem_pointersQ.2 (.inr (.inr (.inr (.inr (.inl hr)))))))
      · exact .inl (h.2 r (mem_pointersQ.2 (.inr (.inr (.inr (.inr (.inr (.inl hr))))))))
      · exact .inr hr
      · exact .inl (h.2 r (mem_pointersQ.2 (.inr (.inr (.inr (.inr (.inr (.inr hr))))))))
  | orderBy c o =>
    simp only [copyCall, Option.map_eq_some_iff] at hc
    obtain ⟨d, hd, rfl⟩ := hc
    have hl : MeansB objs c d := copyB_means hm hd
    refine .ok ⟨rfl, { h.1 with orders := Pointwise.app h.1.orders (.cons ⟨hl, rfl⟩ .nil) }, fun r hr => ?_⟩
    rw [mem_pointersQ] at hr
    rw [List.mem_append]
    simp only [List.mem_append, List.mem_singleton] at hr
    rcases hr with hr | hr | hr | hr | ⟨x, hx | rfl, hr⟩ | hr
    · exact .inl (h.2 r (mem_pointersQ.2 (.inl hr)))
    · exact .inl (h.2 r (mem_pointersQ.2 (.inr (.inl hr))))
    · exact .inl (h.2 r (mem_pointersQ.2 (.inr (.inr (.inl hr)))))
    · exact .inl (h.2 r (mem_pointersQ.2 (.inr (.inr (.inr (.inl hr))))))
    · exact .inl (h.2 r (mem_pointersQ.2 (.inr (.inr (.inr (.inr (.inl ⟨x, hx, hr⟩)))))))
    · exact .inr hr
    · exact .inl (h.2 r (mem_pointersQ.2 (.inr (.inr (.inr (.inr (.inr hr)))))))
  | union cs =>
    simp only [copyCall, Option.map_eq_some_iff] at hc
    obtain ⟨bs, hbs, rfl⟩ := hc
    have hl : MeansL objs cs bs := copyL_means hm hbs
    refine .ok ⟨rfl, { h.1 with unions := MeansL.app h.1.unions hl }, fun r hr => ?_⟩
    rw [mem_pointersQ] at hr
    rw [List.mem_append]
    simp only [pointersL_append, List.mem_append] at hr
    rcases hr with hr | hr | hr | hr | hr | hr | hr | hr
    · exact .inl (h.2 r (mem_pointersQ.2 (.inl hr)))
    · exact .inl (h.2 r (mem_pointersQ.2 (.inr (.inl hr))))
    · exact .inl (h.2 r (mem_pointersQ.2 (.inr (.inr (.inl hr)))))
    · exact .inl (h.2 r (mem_pointersQ.2 (.inr (.inr (.inr (.inl hr))))))
    · exact .inl (h.2 r (mem_pointersQ.2 (.inr (.inr (.inr (.inr (.inl hr)))))))
    · exact .inl (h.2 r (mem_pointersQ.2 (.inr (.inr (.inr (.inr (.inr (.inl hr))))))))
    · exact .inl (h.2 r (mem_pointersQ.2 (.inr (.inr (.inr (.inr (.inr (.inr hr))))))))
    · exact .inr hr
  | with_ n c ds =>
    simp only [copyCall, Option.map_eq_some_iff] at hc
    obtain ⟨d, hd, rfl⟩ := hc
    have hl : MeansB objs c d := copyB_means hm hd
    refine .ok ⟨rfl, { h.1 with ctes := Pointwise.app h.1.ctes (.cons ⟨rfl, rfl, hl⟩ .nil) }, fun r hr => ?_⟩
    rw [mem_pointersQ] at hr
    rw [List.mem_append]
    simp only [List.mem_append, List.mem_singleton] at hr
    rcases hr with ⟨x, hx | rfl, hr⟩ | hr
    · exact .inl (h.2 r (mem_pointersQ.2 (.inl ⟨x, hx, hr⟩)))
    · exact .inr hr
    · exact .inl (h.2 r (mem_pointersQ.2 (.inr hr)))
  | where_ p =>
    cases p with
    | none => cases hc; exact .ok ⟨rfl, h.weaken _⟩
    | some p =>
      simp only [copyCall, Option.map_eq_some_iff] at hc
      obtain ⟨f, hf, rfl⟩ := hc
      exact .ok ⟨rfl, cond_sim h (.ptr p) (.frag f) (.ptr (hm p f hf))⟩
  | where2 c op v =>
    simp only [copyCall, Option.map_eq_some_iff] at hc
    obtain ⟨d, hd, rfl⟩ := hc
    have hl : MeansB objs c d := copyB_means hm hd
    exact .ok ⟨rfl, cond_sim h (.cond (lit "#f1" ++ op ++ lit "$1") [v] c) _ (.cond hl)⟩
  | whereIn c v =>
    simp only [copyCall, Option.map_eq_some_iff] at hc
    obtain ⟨d, hd, rfl⟩ := hc
    have hl : MeansB objs c d := copyB_means hm hd
    have := whereIn_sim h (lit "IN") c d hl v
    simp only [PCall.run, Call.apply, QB.whereIn]
    generalize b.whereInOp (lit "IN") c v = x at *
    generalize q.whereInOp (lit "IN") d v = y at *
    cases this with
    | ok hr => exact .ok ⟨rfl, hr⟩
    | err e => exact .err e
    | panic p => exact .panic p
    | oof => exact .oof
  | whereNotIn c v =>
    simp only [copyCall, Option.map_eq_some_iff] at hc
    obtain ⟨d, hd, rfl⟩ := hc
    have hl : MeansB objs c d := copyB_means hm hd
    have := whereIn_sim h (lit "NOT IN") c d hl v
    simp only [PCall.run, Call.apply, QB.whereNotIn]
    generalize b.whereInOp (lit "NOT IN") c v = x at *
    generalize q.whereInOp (lit "NOT IN") d v = y at *
    cases this with
    | ok hr => exact .ok ⟨rfl, hr⟩
    | err e => exact .err e
    | panic p => exact .panic p
    | oof => exact .oof
  | from_ t =>
    cases hc
    exact .ok ⟨rfl, (RQ.from_ h t).weaken []⟩
  | crossJoin t =>
    cases hc
    simp only [PCall.run, Call.apply, QB.crossJoin]
    by_cases hn : t.name = []
    · rw [(join_empty (objs := objs) (b := b) (q := q) (lit "CROSS JOIN") t none none false hn).1, (join_empty (objs := objs) (b := b) (q := q) (lit "CROSS JOIN") t none none false hn).2]
      exact .ok ⟨rfl, (RQ.error h _).weaken []⟩
    · rw [(pjoin_nil (objs := objs) (b := b) (q := q) (lit "CROSS JOIN") t false hn).1, (pjoin_nil (objs := objs) (b := b) (q := q) (lit "CROSS JOIN") t false hn).2]
      exact .panic _
  | join k t on =>
    simp only [PCall.run]
    by_cases hn : t.name = []
    · have hp : prefixed (.join k t on) objs = objs := by simp only [prefixed, onFragment, if_pos hn]
      rw [hp] at h ⊢
      cases on with
      | none =>
        cases hc
        rw [joinCall_apply, (join_empty (objs := objs) (b := b) (q := q) k.text t none none k.optional hn).1, (join_empty (objs := objs) (b := b) (q := q) k.text t none none k.optional hn).2]
        exact .ok ⟨rfl, (RQ.error h _).weaken []⟩
      | some p =>
        simp only [copyCall, Option.map_eq_some_iff] at hc
        obtain ⟨f, hf, rfl⟩ := hc
        rw [joinCall_apply, (join_empty (objs := objs) (b := b) (q := q) k.text t (some p) (some f) k.optional hn).1, (join_empty (objs := objs) (b := b) (q := q) k.text t (some p) (some f) k.optional hn).2]
        exact .ok ⟨rfl, (RQ.error h _).weaken _⟩
    · cases on with
      | none =>
        cases hc
        rw [joinCall_apply, (pjoin_nil (objs := objs) (b := b) (q := q) k.text t k.optional hn).1, (pjoin_nil (objs := objs) (b := b) (q := q) k.text t k.optional hn).2]
        exact .panic _
      | some p =>
        simp only [copyCall, Option.map_eq_some_iff] at hc
        obtain ⟨f, hf, rfl⟩ := hc
        rw [joinCall_apply]
        refine RQ.join k.text t k.optional h p f hn (by simp only [prefixed, onFragment, if_neg hn]) (hm p _ ?_)
        simp only [prefixedV, onFragment, if_neg hn]
        rw [List.getElem?_modify, hf]
        simp

/-! ## programs -/

/-- The memory with pointers and the memory with copies agree; `used` holds all pointers. -/
structure Sim (m : PMem) (v : VMem) (used : List Nat) : Prop where
  len : m.objs.length = v.frags.length
  bound : ∀ q ∈ used, q < m.objs.length
  within : Within m.objs used
  frags : ∀ (p : Nat) (f : Fragment), v.frags[p]? = some f → MeansF m.objs p f
  qbs : Pointwise (RQ m.objs used) m.qbs v.qbs

theorem Within.weaken {objs used} (h : Within objs used) (more : List Nat) : Within objs (used ++ more) :=
  fun p o ho q hq => List.mem_append.2 (.inl (h p o ho q hq))

theorem RQ.frame {objs objs' used b q} (hw : Within objs used) (hs : Same used objs objs') (h : RQ objs used b q) : RQ objs' used b q :=
  ⟨MeansQ.frame hw hs h.1 h.2, h.2⟩

theorem same_modify {objs : List PFragment} {used : List Nat} {p : Nat} (hp : p ∉ used) (g : PFragment → PFragment) : Same used objs (objs.modify p g) := by
  intro q hq
  rw [List.getElem?_modify]
  have : ¬p = q := fun e => hp (e ▸ hq)
  simp [this]

/-- A change of one fragment that is not used. -/
theorem change_frags {objs : List PFragment} {env : List Fragment} {used : List Nat} {p : Nat} {g : PFragment → PFragment} {g' : Fragment → Fragment}
    (hw : Within objs used) (hp : p ∉ used) (hm : ∀ (q : Nat) (f : Fragment), env[q]? = some f → MeansF objs q f)
    (hg : ∀ (o : PFragment) bs, MeansL (objs.modify p g) o.frags bs → ∃ bs', g' (.mk o.raw o.args bs o.pre o.suf) = .mk (g o).raw (g o).args bs' (g o).pre (g o).suf ∧
      MeansL (objs.modify p g) (g o).frags bs') :
    ∀ (q : Nat) (f : Fragment), (env.modify p g')[q]? = some f → MeansF (objs.modify p g) q f := by
  intro q f hf
  have hs := same_modify (objs := objs) hp g
  rw [List.getElem?_modify] at hf
  by_cases e : p = q
  · subst e
    simp only [if_true] at hf
    cases hf0 : env[p]? with
    | none => rw [hf0] at hf; cases hf
    | some f0 =>
      rw [hf0] at hf
      cases hf
      cases hm p f0 hf0 with
      | @mk _ o bs ho hl =>
        obtain ⟨bs', h1, h2⟩ := hg o bs (MeansL.frame hw hs hl (hw p o ho))
        show MeansF _ p (g' _)
        rw [h1]
        exact .mk (o := g o) (by rw [List.getElem?_modify, ho]; simp) h2
  · simp only [if_neg e] at hf
    have hf' : env[q]? = some f := by simpa using hf
    cases hm q f hf' with
    | @mk _ o bs ho hl =>
      exact .mk (o := o) (by rw [List.getElem?_modify, ho]; simp [e]) (MeansL.frame hw hs hl (hw q o ho))

theorem within_modify {objs : List PFragment} {used : List Nat} {p : Nat} {g : PFragment → PFragment} (hw : Within objs used)
    (hg : ∀ o, objs[p]? = some o → ∀ q ∈ pointersL (g o).frags, q ∈ used) : Within (objs.modify p g) used := by
  intro q o ho
  rw [List.getElem?_modify] at ho
  by_cases e : p = q
  · subst e
    cases ho0 : objs[p]? with
    | none => rw [ho0] at ho; cases ho
    | some o0 =>
      rw [ho0] at ho
      simp at ho
      subst ho
      exact hg o0 ho0
  · exact hw q o (by simpa [e] using ho)

/-- A change of one fragment that is not used. -/
theorem Sim.change {m : PMem} {v : VMem} {used : List Nat} (h : Sim m v used) (more : List Nat) {p : Nat} {g : PFragment → PFragment} {g' : Fragment → Fragment}
    (hb : ∀ q ∈ more, q < v.frags.length) (hp : p ∉ used) (_hp' : p ∉ more)
    (hg : ∀ (o : PFragment) bs, MeansL (m.objs.modify p g) o.frags bs → ∃ bs', g' (.mk o.raw o.args bs o.pre o.suf) = .mk (g o).raw (g o).args bs' (g o).pre (g o).suf ∧
      MeansL (m.objs.modify p g) (g o).frags bs')
    (hq : ∀ (o : PFragment), ∀ q ∈ pointersL (g o).frags, q ∈ pointersL o.frags ∨ q ∈ more) :
    Sim { m with objs := m.objs.modify p g } { v with frags := v.frags.modify p g' } (used ++ more) where
  len := by simp [h.len]
  bound := by
    intro q hq
    simp only [List.length_modify]
    rcases List.mem_append.1 hq with hq | hq
    · exact h.bound q hq
    · rw [h.len]; exact hb q hq
  within := within_modify (h.within.weaken more) fun o ho q hq' => by
    rcases hq o q hq' with hq' | hq'
    · exact List.mem_append.2 (.inl (h.within p o ho q hq'))
    · exact List.mem_append.2 (.inr hq')
  frags := change_frags h.within hp h.frags hg
  qbs := Pointwise.imp h.qbs fun _ _ _ hr => (hr.frame h.within (same_modify hp g)).weaken more

/-- Making and changing fragments. -/
theorem Sim.op {m : PMem} {v : VMem} {used : List Nat} (h : Sim m v used) (o : FOp) (ha : Allowed v used (.frag o)) {env : List Fragment}
    (hc : copyOp v.frags o = some env) : Sim { m with objs := o.run m.objs } { v with frags := env } (used ++ usedByOp o) := by
  have hadd : ∀ {p : Nat} {g : PFragment → PFragment} {cs bs}, p ∉ used → p ∉ pointersL cs → copyL v.frags cs = some bs → MeansL (m.objs.modify p g) cs bs := by
    intro p g cs bs hp hp' hcs
    have hl : MeansL m.objs cs bs := copyL_means h.frags hcs
    refine MeansL.frame (h.within.weaken (pointersL cs)) (same_modify (fun hx => ?_) g) hl fun q hq => List.mem_append.2 (.inr hq)
    rcases List.mem_append.1 hx with hx | hx
    · exact hp hx
    · exact hp' hx
  cases o with
  | new raw as fs =>
    simp only [copyOp, Option.map_eq_some_iff] at hc
    obtain ⟨bs, hbs, rfl⟩ := hc
    have hl : MeansL m.objs fs bs := copyL_means h.frags hbs
    have hs : ∀ q, q < m.objs.length → (m.objs ++ [(⟨raw, as, fs, [], []⟩ : PFragment)])[q]? = m.objs[q]? :=
      fun q hq => List.getElem?_append_left hq
    have hb : ∀ q ∈ used ++ pointersL fs, q < m.objs.length := by
      intro q hq
      rcases List.mem_append.1 hq with hq | hq
      · exact h.bound q hq
      · rw [h.len]; exact copyL_bound hbs q hq
    have hsame : Same (used ++ pointersL fs) m.objs (m.objs ++ [(⟨raw, as, fs, [], []⟩ : PFragment)]) := fun q hq => hs q (hb q hq)
    have hw := h.within.weaken (pointersL fs)
    refine ⟨by simp [FOp.run, h.len], fun q hq => ?_, fun q o ho r hr => ?_, fun q f hf => ?_, Pointwise.imp h.qbs fun _ _ _ hr => (hr.weaken _).frame hw hsame⟩
    · simp only [FOp.run, List.length_append]
      have := hb q hq
      omega
    · simp only [FOp.run] at ho
      by_cases hlt : q < m.objs.length
      · rw [hs q hlt] at ho
        exact hw q o ho r hr
      · have hge : m.objs.length ≤ q := by omega
        rw [List.getElem?_append_right hge] at ho
        have : q - m.objs.length = 0 := by
          cases hk : q - m.objs.length with
          | zero => rfl
          | succ k => rw [hk] at ho; simp at ho
        rw [this] at ho
        simp at ho
        subst ho
        exact List.mem_append.2 (.inr hr)
    · simp only [FOp.run]
      by_cases hlt : q < v.frags.length
      · rw [List.getElem?_append_left hlt] at hf
        cases h.frags q f hf with
        | @mk _ o bs ho hl => exact .mk (o := o) (by rw [hs q (by rw [h.len]; exact hlt), ho]) (MeansL.frame hw hsame hl (hw q o ho))
      · have hge : v.frags.length ≤ q := by omega
        rw [List.getElem?_append_right hge] at hf
        have h0 : q - v.frags.length = 0 := by
          cases hk : q - v.frags.length with
          | zero => rfl
          | succ k => rw [hk] at hf; simp at hf
        rw [h0] at hf
        simp at hf
        subst hf
        have hq : q = m.objs.length := by rw [h.len]; omega
        subst hq
        exact .mk (o := ⟨raw, as, fs, [], []⟩) (by simp) (MeansL.frame hw hsame hl fun q hq => List.mem_append.2 (.inr hq))
  | withPrefix p s =>
    cases hc
    exact h.change [] (by simp) (ha p rfl).1 (by simp) (fun o bs hl => ⟨bs, rfl, hl⟩) fun o q hq => .inl hq
  | withSuffix p s =>
    cases hc
    exact h.change [] (by simp) (ha p rfl).1 (by simp) (fun o bs hl => ⟨bs, rfl, hl⟩) fun o q hq => .inl hq
  | withArgs p s =>
    cases hc
    exact h.change [] (by simp) (ha p rfl).1 (by simp) (fun o bs hl => ⟨bs, rfl, hl⟩) fun o q hq => .inl hq
  | appendArgs p s =>
    cases hc
    exact h.change [] (by simp) (ha p rfl).1 (by simp) (fun o bs hl => ⟨bs, rfl, hl⟩) fun o q hq => .inl hq
  | withFragments p cs =>
    simp only [copyOp, Option.map_eq_some_iff] at hc
    obtain ⟨bs, hbs, rfl⟩ := hc
    exact h.change (pointersL cs) (copyL_bound hbs) (ha p rfl).1 (ha p rfl).2 (fun o _ _ => ⟨bs, rfl, hadd (ha p rfl).1 (ha p rfl).2 hbs⟩) fun o q hq => .inr hq
  | appendFragments p cs =>
    simp only [copyOp, Option.map_eq_some_iff] at hc
    obtain ⟨bs, hbs, rfl⟩ := hc
    refine h.change (pointersL cs) (copyL_bound hbs) (ha p rfl).1 (ha p rfl).2
      (fun o bs0 hl => ⟨bs0 ++ bs, rfl, MeansL.app hl (hadd (ha p rfl).1 (ha p rfl).2 hbs)⟩) fun o q hq => ?_
    simp only [pointersL_append] at hq
    exact List.mem_append.1 hq

theorem copyCall_bound {env : List Fragment} {c : PCall} {c' : Call} (h : copyCall env c = some c') : ∀ q ∈ usedByCall c, q < env.length := by
  have hptr : ∀ {p : Nat} {f : Fragment}, env[p]? = some f → ∀ q ∈ (some p).toList, q < env.length := by
    intro p f hf q hq
    simp at hq
    subst hq
    exact (List.getElem?_eq_some_iff.1 hf).1
  cases c <;> simp only [usedByCall] <;> (try (intro q hq; cases hq; done))
  case select => simp only [copyCall, Option.map_eq_some_iff] at h; obtain ⟨_, h, -⟩ := h; exact copyL_bound h
  case groupBy => simp only [copyCall, Option.map_eq_some_iff] at h; obtain ⟨_, h, -⟩ := h; exact copyL_bound h
  case union => simp only [copyCall, Option.map_eq_some_iff] at h; obtain ⟨_, h, -⟩ := h; exact copyL_bound h
  case orderBy => simp only [copyCall, Option.map_eq_some_iff] at h; obtain ⟨_, h, -⟩ := h; exact copyB_bound h
  case with_ => simp only [copyCall, Option.map_eq_some_iff] at h; obtain ⟨_, h, -⟩ := h; exact copyB_bound h
  case where2 => simp only [copyCall, Option.map_eq_some_iff] at h; obtain ⟨_, h, -⟩ := h; exact copyB_bound h
  case whereIn => simp only [copyCall, Option.map_eq_some_iff] at h; obtain ⟨_, h, -⟩ := h; exact copyB_bound h
  case whereNotIn => simp only [copyCall, Option.map_eq_some_iff] at h; obtain ⟨_, h, -⟩ := h; exact copyB_bound h
  case where_ p =>
    cases p with
    | none => simp
    | some p => simp only [copyCall, Option.map_eq_some_iff] at h; obtain ⟨_, h, -⟩ := h; exact hptr h
  case join k t p =>
    cases p with
    | none => simp
    | some p => simp only [copyCall, Option.map_eq_some_iff] at h; obtain ⟨_, h, -⟩ := h; exact hptr h

/-- The prefix of the ON fragment is set. -/
theorem Sim.prefixed {m : PMem} {v : VMem} {used : List Nat} (h : Sim m v used) (r : Nat) (c : PCall) (ha : Allowed v used (.call r c)) :
    Sim { m with objs := prefixed c m.objs } { v with frags := prefixedV c v.frags } used := by
  unfold Sqlf.prefixed prefixedV
  cases hp : onFragment c with
  | none => exact h
  | some p =>
    by_cases hu : p ∈ used
    · have hlt := h.bound p hu
      have hf : v.frags[p]? = some (v.frags[p]'(h.len ▸ hlt)) := List.getElem?_eq_getElem (h.len ▸ hlt)
      have hpre := ha p hp hu _ hf
      generalize v.frags[p]'(h.len ▸ hlt) = f at hf hpre
      cases h.frags p f hf with
      | @mk _ o bs ho hl =>
        simp only [Fragment.pre] at hpre
        have e1 : (m.objs.modify p fun o => { o with pre := lit "ON" }) = m.objs := by
          apply List.ext_getElem?
          intro q
          rw [List.getElem?_modify]
          by_cases e : p = q
          · subst e
            rw [ho]
            simp [← hpre]
          · simp [e]
        have e2 : (v.frags.modify p (·.withPrefix (lit "ON"))) = v.frags := by
          apply List.ext_getElem?
          intro q
          rw [List.getElem?_modify]
          by_cases e : p = q
          · subst e
            rw [hf]
            simp [Fragment.withPrefix, ← hpre]
          · simp [e]
        simp only [e1, e2]
        exact h
    · have := h.change (m := m) (v := v) (p := p) (g := fun o => { o with pre := lit "ON" }) (g' := (·.withPrefix (lit "ON"))) [] (by simp) hu (by simp)
        (fun o bs hl => ⟨bs, rfl, hl⟩) fun o q hq => .inl hq
      simpa using this

theorem getLeft {R : α → β → Prop} {l : List α} {m : List β} (h : Pointwise R l m) {k : Nat} {b : β} (hb : m[k]? = some b) : ∃ a, l[k]? = some a := by
  have hl := Spec.Pointwise.length h
  exact ⟨_, List.getElem?_eq_getElem (hl ▸ (List.getElem?_eq_some_iff.1 hb).1)⟩

theorem getBoth {R : α → β → Prop} : ∀ {l : List α} {m : List β}, Pointwise R l m → ∀ {k : Nat} {a : α} {b : β}, l[k]? = some a → m[k]? = some b → R a b
  | _, _, .nil, _, _, _, h1, _ => by cases h1
  | _, _, .cons h _, 0, _, _, h1, h2 => by cases h1; cases h2; exact h
  | _, _, .cons _ h, _ + 1, _, _, h1, h2 => getBoth h h1 h2

theorem Sim.step {m : PMem} {v : VMem} {used : List Nat} (h : Sim m v used) (c : Stmt) (ha : Allowed v used c) {o : Out VMem} (hc : copyStmt v c = some o) :
    SimOut (fun m' v' => Sim m' v' (used ++ usedBy c)) (c.run m) o := by
  cases c with
  | frag f =>
    simp only [copyStmt, Option.map_eq_some_iff] at hc
    obtain ⟨env, henv, rfl⟩ := hc
    exact .ok (h.op f ha henv)
  | newQB =>
    cases hc
    refine .ok ⟨h.len, by simpa [usedBy] using h.bound, h.within.weaken _, h.frags, ?_⟩
    refine Pointwise.app (Pointwise.imp h.qbs fun _ _ _ hr => hr.weaken _) (.cons ⟨?_, by simp [pointersQ, PQB.new, pointersL]⟩ .nil)
    exact { ctes := .nil, cells := .nil, tables := rfl, tablesDict := rfl, selects := ⟨[], .nil, rfl⟩, touches := rfl, conditions := ⟨[], .nil, rfl⟩, orders := .nil, groupbys := ⟨[], .nil, rfl⟩, distinct := rfl, limit := rfl, offset := rfl, unions := .nil, errors := rfl, debug := rfl }
  | call r c =>
    simp only [copyStmt] at hc
    split at hc
    · next q c' hq hc' =>
      cases hc
      obtain ⟨b, hb⟩ : ∃ b, m.qbs[r]? = some b := getLeft h.qbs hq
      have h' := h.prefixed r c ha
      have hbq' := getBoth h'.qbs hb hq
      have := pcall_sim c h'.frags hbq' hc'
      simp only [Stmt.run, hb]
      revert this
      generalize c.run m.objs b = x
      generalize c'.apply q = y
      intro this
      cases this with
      | err e => exact .err e
      | panic p => exact .panic p
      | oof => exact .oof
      | @ok x q' hx =>
        obtain ⟨objs, b'⟩ := x
        obtain ⟨e, hx⟩ := hx
        simp only at e hx
        subst e
        refine .ok ⟨h'.len, ?_, h'.within.weaken _, h'.frags, ?_⟩
        · intro q hq
          rcases List.mem_append.1 hq with hq | hq
          · exact h'.bound q hq
          · have := copyCall_bound hc' q hq
            have hl := h'.len
            simp only [usedBy] at *
            rw [hl]
            simp only [prefixedV]
            split <;> simp <;> exact this
        · exact Pointwise.setBoth hx (Pointwise.imp h'.qbs fun _ _ _ hr => hr.weaken _) r
    · cases hc

theorem Sim.run : ∀ {cs : List Stmt} {m : PMem} {v : VMem} {used : List Nat}, Sim m v used → Disciplined v used cs → ∀ {o : Out VMem}, copyStmts v cs = some o →
    SimOut (fun m' v' => ∃ used', Sim m' v' used') (runStmts m cs) o
  | [], _, _, used, h, _, _, e => by cases e; exact .ok ⟨used, h⟩
  | c :: cs, m, v, used, h, hd, o, e => by
    obtain ⟨ha, hd⟩ := hd
    simp only [copyStmts] at e
    cases hs : copyStmt v c with
    | none => rw [hs] at e; cases e
    | some o1 =>
      have hstep := h.step c ha hs
      rw [hs] at e
      simp only [runStmts]
      revert hstep
      generalize c.run m = x
      intro hstep
      cases hstep with
      | err x => cases e; exact .err x
      | panic p => cases e; exact .panic p
      | oof => cases e; exact .oof
      | ok hr => exact Sim.run hr (hd _ hs) e

/-! ## uniqueness -/

mutual
theorem MeansB.unique {objs} : ∀ {c b b'}, MeansB objs c b → MeansB objs c b' → b = b'
  | _, _, _, .plain _, .plain _ => rfl
  | _, _, _, .ptr h, .ptr h' => by rw [MeansF.unique h h']
  | _, _, _, .column h, .column h' => by rw [MeansF.unique h h']
  | _, _, _, .cond h, .cond h' => by rw [MeansB.unique h h']
theorem MeansF.unique {objs} : ∀ {p f f'}, MeansF objs p f → MeansF objs p f' → f = f'
  | _, _, _, .mk ho h, .mk ho' h' => by
    rw [ho] at ho'
    cases ho'
    rw [MeansL.unique h h']
theorem MeansL.unique {objs} : ∀ {cs bs bs'}, MeansL objs cs bs → MeansL objs cs bs' → bs = bs'
  | _, _, _, .nil, .nil => rfl
  | _, _, _, .cons h1 h2, .cons h1' h2' => by rw [MeansB.unique h1 h1', MeansL.unique h2 h2']
end

theorem MeansT.unique {objs} : ∀ {t f f'}, MeansT objs t f → MeansT objs t f' → f = f'
  | _, _, _, .none, .none => rfl
  | _, _, _, .from_ _, .from_ _ => rfl
  | _, _, _, .join h, .join h' => by rw [MeansF.unique h h']

theorem Pointwise.unique {R : α → β → Prop} (hR : ∀ a b b', R a b → R a b' → b = b') : ∀ {as bs bs'}, Pointwise R as bs → Pointwise R as bs' → bs = bs'
  | _, _, _, .nil, .nil => rfl
  | _, _, _, .cons h1 h2, .cons h1' h2' => by rw [hR _ _ _ h1 h1', Pointwise.unique hR h2 h2']

theorem meansQ_unique {objs b q q'} (h : MeansQ objs b q) (h' : MeansQ objs b q') : q = q' := by
  have e1 : q.ctes = q'.ctes := Pointwise.unique (fun a x y ⟨a1, a2, a3⟩ ⟨b1, b2, b3⟩ => by
    cases x; cases y
    simp only at a1 a2 a3 b1 b2 b3
    subst a1 a2 b1 b2
    rw [MeansB.unique a3 b3]) h.ctes h'.ctes
  have e2 : q.cells = q'.cells := Pointwise.unique (fun a x y ⟨a1, a2, a3⟩ ⟨b1, b2, b3⟩ => by
    cases x; cases y
    simp only at a1 a2 a3 b1 b2 b3
    subst a1 a2 b1 b2
    rw [MeansT.unique a3 b3]) h.cells h'.cells
  have e3 : q.orders = q'.orders := Pointwise.unique (fun a x y ⟨a1, a2⟩ ⟨b1, b2⟩ => by
    cases x; cases y
    simp only at a1 a2 b1 b2
    subst a2 b2
    rw [MeansB.unique a1 b1]) h.orders h'.orders
  obtain ⟨s1, h1, h1'⟩ := h.selects
  obtain ⟨t1, g1, g1'⟩ := h'.selects
  obtain ⟨s2, h2, h2'⟩ := h.conditions
  obtain ⟨t2, g2, g2'⟩ := h'.conditions
  obtain ⟨s3, h3, h3'⟩ := h.groupbys
  obtain ⟨t3, g3, g3'⟩ := h'.groupbys
  have e4 : q.selects = q'.selects := by rw [h1', g1', MeansL.unique h1 g1]
  have e5 : q.conditions = q'.conditions := by rw [h2', g2', MeansL.unique h2 g2]
  have e6 : q.groupbys = q'.groupbys := by rw [h3', g3', MeansL.unique h3 g3]
  have e7 := MeansL.unique h.unions h'.unions
  have e8 := h.touches.trans h'.touches.symm
  have e9 := h.tables.symm.trans h'.tables
  have e10 := h.tablesDict.symm.trans h'.tablesDict
  have e11 := h.distinct.symm.trans h'.distinct
  have e12 := h.limit.symm.trans h'.limit
  have e13 := h.offset.symm.trans h'.offset
  have e14 := h.errors.symm.trans h'.errors
  have e15 := h.debug.symm.trans h'.debug
  cases q; cases q'
  simp only at e1 e2 e3 e4 e5 e6 e7 e8 e9 e10 e11 e12 e13 e14 e15
  subst e1 e2 e3 e4 e5 e6 e7 e8 e9 e10 e11 e12 e13 e14 e15
  rfl

end Sqlf

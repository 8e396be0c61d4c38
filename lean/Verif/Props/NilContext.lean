import Verif.Spec.NilContext
import Verif.Spec.Outcome
import Verif.Proofs.NilContext
import Verif.Proofs.Api
import Verif.KernelRfl
/-!
# C116: building with a nil context
-/

namespace Sqlf.Props

open Spec

/-- A fragment, and a column of one, is not built with a nil context: the error "nil context" is returned, and nothing is changed. -/
theorem C116_fragments_refuse (L : GoLib) (orphan : List (Str × FuncVal) → Builder → M (Except Err Str))
    (f : Fragment) (t : Str) (s : St) :
    NilReturns L orphan (.frag f) s (.err (.builder (lit "nil context")), s) ∧
    NilReturns L orphan (.column t f) s (.err (.builder (lit "nil context")), s) := by
  refine ⟨⟨by simp, 1, fun n hn => ?_⟩, by simp, 1, fun n hn => ?_⟩ <;>
  · match n, hn with
    | n + 1, _ => rfl

/-- Only tables, nil pointers and user code give a text: the name or alias of the table, and the empty text. In particular a query
builder never does, whatever is in it. -/
theorem C116_texts (L : GoLib) (orphan : List (Str × FuncVal) → Builder → M (Except Err Str)) (b : Builder)
    (s s' : St) (t : Str) (h : NilReturns L orphan b s (.ok t, s')) :
    (b = .nilFrag ∧ t = []) ∨ (b = .nilQb ∧ t = []) ∨ (∃ n, b = .columnNilFrag n ∧ t = []) ∨ b = .table t ∨
    (∃ n a, b = .aliased n a ∧ t = if a = [] then n else a) ∨ ∃ p, b = .custom p := by
  obtain ⟨_, N, h⟩ := h
  have h := h (N + 1) (Nat.le_succ N)
  cases b with
  | nil => cases h
  | nilColumn => cases h
  | frag f => cases h
  | column n f => cases h
  | nilFrag => cases h; exact .inl ⟨rfl, rfl⟩
  | nilQb => cases h; exact .inr (.inl ⟨rfl, rfl⟩)
  | columnNilFrag n => cases h; exact .inr (.inr (.inl ⟨n, rfl, rfl⟩))
  | table n => cases h; exact .inr (.inr (.inr (.inl rfl)))
  | aliased n a =>
    cases h
    refine .inr (.inr (.inr (.inr (.inl ⟨n, a, rfl, ?_⟩))))
    unfold TableAliased.appliedName
    by_cases ha : a = [] <;> simp [ha]
  | qb r => exact absurd (congrArg Prod.fst h) (nilInternal_noResult _ r s t)
  | custom p => exact .inr (.inr (.inr (.inr (.inr ⟨p, rfl⟩))))

/-- If a query builder can be built with some context without a panic, with a result or an error, then with a nil context it
returns an error, and nothing is changed (no user code in CTEs). -/
theorem C116_query_builders_refuse (L : GoLib) (orphan : List (Str × FuncVal) → Builder → M (Except Err Str)) (r : Nat)
    (ctx : Ctx) (s s' : St) (o : Out Str) (hs : ∀ q ∈ s.heap, ∀ c ∈ q.ctes, Builder.NotUser c.builder)
    (h : BuildsTo L ctx (.qb r) s (o, s')) (ho : ∀ p, o ≠ .panic p) :
    ∃ e, NilReturns L orphan (.qb r) s (.err e, s) := by
  obtain ⟨hoof, N, h⟩ := h
  have h := h (N + 1) (Nat.le_succ N)
  have hsh := nilBuild_shadows L orphan ctx (N + 1) (.qb r) s trivial hs
  have hmore := fun hn => nilBuild_more L orphan (n := N + 1) (b := .qb r) trivial hs hn
  unfold Shadows at hsh
  rw [h] at hsh
  match hx : nilBuild L orphan (N + 1) (.qb r) s, hsh with
  | (.ok t, u), _ => exact absurd (congrArg Prod.fst hx) (nilInternal_noResult _ r s t)
  | (.panic p, u), hsh => exact absurd hsh.2 (ho p)
  | (.oof, u), hsh => exact absurd hsh.2 hoof
  | (.err e, u), hsh =>
    cases hsh
    rw [hx] at hmore
    refine ⟨e, by simp, N + 1, fun n hn => ?_⟩
    obtain ⟨k, rfl⟩ := Nat.exists_eq_add_of_le hn
    exact hmore (by simp) k

/-- Without user code nothing is written: no argument is stored, nothing is logged, no query builder is changed. -/
theorem C116_nothing_changes (L : GoLib) (orphan : List (Str × FuncVal) → Builder → M (Except Err Str)) (b : Builder)
    (s s' : St) (o : Out Str) (hb : Builder.NotUser b) (hs : ∀ q ∈ s.heap, ∀ c ∈ q.ctes, Builder.NotUser c.builder)
    (h : NilReturns L orphan b s (o, s')) : s' = s := by
  obtain ⟨_, N, h⟩ := h
  have h := h N (Nat.le_refl N)
  have hk := nilBuild_keeps L orphan N b s hb hs
  rw [h] at hk
  exact hk

/-- A query builder whose table is another one, as a CTE. -/
def nilCtxOuter : QB :=
  ((QB.new.select [tableColumn (lit "t") (lit "id")]).from_ ⟨lit "t", []⟩).with_ (lit "t") (.qb 1) []

/-- The query builder in it. -/
def nilCtxInner : QB := (QB.new.select [tableColumn (lit "u") (lit "id")]).from_ ⟨lit "users", lit "u"⟩

theorem nilCtxOuter_builds (L : GoLib) : ∃ s', BuildsTo L rootCtx (.qb 0) (St.init dollar [nilCtxOuter, nilCtxInner])
    (.ok (lit "With t AS (SELECT u.id FROM users AS u) SELECT t.id FROM t"), s') := by
  have h1 : (run L 200 rootCtx (.build (.qb 0)) (St.init dollar [nilCtxOuter, nilCtxInner])).1 =
    .ok (lit "With t AS (SELECT u.id FROM users AS u) SELECT t.id FROM t") := by kernel_rfl
  generalize hx : run L 200 rootCtx (.build (.qb 0)) (St.init dollar [nilCtxOuter, nilCtxInner]) = x at h1
  obtain ⟨o, s'⟩ := x
  refine ⟨s', buildsTo_of_run (n := 200) ?_ (fun h => by cases h)⟩
  rw [hx, ← h1]

/-- With a context the two give a query, with a nil context an error. -/
example (L : GoLib) (orphan : List (Str × FuncVal) → Builder → M (Except Err Str)) :
    ∃ s', BuildsTo L rootCtx (.qb 0) (St.init dollar [nilCtxOuter, nilCtxInner])
        (.ok (lit "With t AS (SELECT u.id FROM users AS u) SELECT t.id FROM t"), s') ∧
      ∃ e, NilReturns L orphan (.qb 0) (St.init dollar [nilCtxOuter, nilCtxInner])
        (.err e, St.init dollar [nilCtxOuter, nilCtxInner]) := by
  obtain ⟨s', h⟩ := nilCtxOuter_builds L
  refine ⟨s', h, C116_query_builders_refuse L orphan 0 rootCtx _ _ _ (fun q hq c hc => ?_) h (fun p h => by cases h)⟩
  have hq : q = nilCtxOuter ∨ q = nilCtxInner := by
    rcases List.mem_cons.1 hq with h | h
    · exact .inl h
    · exact .inr (List.mem_singleton.1 h)
  rcases hq with rfl | rfl
  · cases List.mem_singleton.1 hc; trivial
  · cases hc

/-- A table gives its alias.  User code that commits an argument panics. -/
example (L : GoLib) (orphan : List (Str × FuncVal) → Builder → M (Except Err Str)) (s : St) (v : Val) :
    NilReturns L orphan (.aliased (lit "users") (lit "u")) s (.ok (lit "u"), s) ∧
    NilReturns L orphan (.custom (.commit v .ret)) s (.panic .nilDereference, s) := by
  refine ⟨⟨by simp, 1, fun n hn => ?_⟩, by simp, 1, fun n hn => ?_⟩ <;>
  · match n, hn with
    | n + 1, _ => rfl

end Sqlf.Props

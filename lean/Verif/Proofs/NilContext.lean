import Verif.Spec.NilContext
import Verif.Spec.Outcome
/-!
# Building with a nil context: lemmas
-/

namespace Sqlf

open Spec

/-- The computation leaves the state `s` as it is. -/
def KeepsAt (s : St) (m : M α) : Prop := (m s).2 = s

theorem keepsAt_bind {s : St} {m : M α} {f : α → M β} (hm : KeepsAt s m) (hf : ∀ a, KeepsAt s (f a)) :
    KeepsAt s (M.bind m f) := by
  unfold KeepsAt M.bind at *
  match hms : m s with
  | (.ok a, s') => rw [hms] at hm; cases hm; exact hf a
  | (.err e, s') => rw [hms] at hm; exact hm
  | (.panic p, s') => rw [hms] at hm; exact hm
  | (.oof, s') => rw [hms] at hm; exact hm

theorem bind_of_ok {m : M α} {f : α → M β} {s s' : St} {a : α} (h : m s = (.ok a, s')) : M.bind m f s = f a s' := by
  unfold M.bind; rw [h]

theorem keepsAt_wrapErr {s : St} (w : Str) {m : M α} (hm : KeepsAt s m) : KeepsAt s (M.wrapErr w m) := by
  unfold KeepsAt M.wrapErr at *
  match hms : m s with
  | (.ok a, s') => rw [hms] at hm; exact hm
  | (.err e, s') => rw [hms] at hm; exact hm
  | (.panic p, s') => rw [hms] at hm; exact hm
  | (.oof, s') => rw [hms] at hm; exact hm

theorem keepsAt_collectM {s : St} {f : α → M (Option Str)} :
    ∀ {l : List α}, (∀ a ∈ l, KeepsAt s (f a)) → KeepsAt s (collectM f l)
  | [], _ => rfl
  | _ :: _, h => keepsAt_bind (h _ (List.mem_cons_self ..)) fun _ =>
      keepsAt_bind (keepsAt_collectM fun _ hb => h _ (List.mem_cons_of_mem _ hb)) fun _ => rfl

theorem keepsAt_nilFrom (s : St) (b : QB) (dep : Deps) : KeepsAt s (nilFrom b dep) := by
  refine keepsAt_bind (keepsAt_collectM fun t _ => ?_) fun _ => rfl
  split
  · rfl
  · refine keepsAt_bind (keepsAt_wrapErr _ ?_) fun _ => rfl
    split <;> rfl

/-- What is left of `buildInternal` once the dependencies are known. -/
theorem nilInternal_eq (nrec : Builder → M Str) (r : Nat) :
    nilInternal nrec r = M.bind (getQB r) fun b =>
      if b.errors.length ≠ 0 then .err (anyError b.errors)
      else M.bind (.ofOut b.collectDependencies) fun dep =>
        M.bind (nilCTEs nrec b dep) fun _ => M.bind (getQB r) fun b =>
        M.bind (nilFrom b dep) fun _ => M.bind (getQB r) fun _ => .err nilContextErr := rfl

/-- The computation never gives a result. -/
def NoResult (m : M α) : Prop := ∀ s a, (m s).1 ≠ .ok a

theorem noResult_err (e : Err) : NoResult (M.err e : M α) := fun _ _ h => by cases h

theorem noResult_bind {m : M α} {f : α → M β} (hf : ∀ a, NoResult (f a)) : NoResult (M.bind m f) := by
  intro s b h
  unfold M.bind at h
  match hms : m s, h with
  | (.ok a, s'), h => exact hf a s' b h
  | (.err e, s'), h => cases h
  | (.panic p, s'), h => cases h
  | (.oof, s'), h => cases h

theorem nilInternal_noResult (nrec : Builder → M Str) (r : Nat) : NoResult (nilInternal nrec r) := by
  rw [nilInternal_eq]
  refine noResult_bind fun b => ?_
  split
  · exact noResult_err _
  · exact noResult_bind fun _ => noResult_bind fun _ => noResult_bind fun _ => noResult_bind fun _ =>
      noResult_bind fun _ => noResult_err _

theorem keepsAt_getQB (s : St) (r : Nat) : KeepsAt s (getQB r) := by
  unfold KeepsAt getQB
  split <;> rfl

theorem nilInternal_keeps {nrec : Builder → M Str} {r : Nat} {s : St}
    (h : ∀ b, s.heap[r]? = some b → ∀ c ∈ b.ctes, KeepsAt s (nrec c.builder)) :
    KeepsAt s (nilInternal nrec r) := by
  rw [nilInternal_eq]
  match hb : s.heap[r]? with
  | none => unfold KeepsAt M.bind getQB; rw [hb]
  | some b =>
    have hg : getQB r s = (.ok b, s) := by unfold getQB; rw [hb]
    unfold KeepsAt
    rw [bind_of_ok hg]
    by_cases hne : b.errors.length ≠ 0
    · rw [if_pos hne]; rfl
    · rw [if_neg hne]
      refine keepsAt_bind rfl fun dep => keepsAt_bind (keepsAt_bind (keepsAt_collectM fun c hc => ?_) fun _ => rfl) fun _ =>
        keepsAt_bind (keepsAt_getQB s r) fun _ => keepsAt_bind (keepsAt_nilFrom s _ dep) fun _ =>
        keepsAt_bind (keepsAt_getQB s r) fun _ => rfl
      split
      · rfl
      · exact keepsAt_bind (keepsAt_wrapErr _ (h b hb c hc)) fun _ => rfl

theorem nilBuild_keeps (L : GoLib) (orphan : List (Str × FuncVal) → Builder → M (Except Err Str)) :
    ∀ (n : Nat) (b : Builder) (s : St), Builder.NotUser b →
      (∀ q ∈ s.heap, ∀ c ∈ q.ctes, Builder.NotUser c.builder) → (nilBuild L orphan n b s).2 = s
  | 0, _, _, _, _ => rfl
  | n + 1, b, s, hb, h => by
    cases b with
    | custom p => exact hb.elim
    | qb r =>
      exact nilInternal_keeps fun q hq c hc => nilBuild_keeps L orphan n c.builder s
        (h q (List.mem_of_getElem? hq) c hc) h
    | _ => rfl

/-- The computation returns: a text or an error, in the same state. -/
def ReturnsAt (m : M α) : Prop := ∀ s, (∃ a, m s = (.ok a, s)) ∨ ∃ e, m s = (.err e, s)

theorem returnsAt_pure (a : α) : ReturnsAt (M.pure a) := fun _ => .inl ⟨a, rfl⟩
theorem returnsAt_err (e : Err) : ReturnsAt (M.err e : M α) := fun _ => .inr ⟨e, rfl⟩

theorem returnsAt_bind {m : M α} {f : α → M β} (hm : ReturnsAt m) (hf : ∀ a, ReturnsAt (f a)) : ReturnsAt (M.bind m f) := by
  intro s
  unfold M.bind
  rcases hm s with ⟨a, h⟩ | ⟨e, h⟩ <;> rw [h]
  · exact hf a s
  · exact .inr ⟨e, rfl⟩

theorem returnsAt_wrapErr (w : Str) {m : M α} (hm : ReturnsAt m) : ReturnsAt (M.wrapErr w m) := by
  intro s
  unfold M.wrapErr
  rcases hm s with ⟨a, h⟩ | ⟨e, h⟩ <;> rw [h]
  · exact .inl ⟨a, rfl⟩
  · exact .inr ⟨_, rfl⟩

theorem returnsAt_collectM {f : α → M (Option Str)} : ∀ {l : List α}, (∀ a ∈ l, ReturnsAt (f a)) → ReturnsAt (collectM f l)
  | [], _ => returnsAt_pure _
  | _ :: _, h => returnsAt_bind (h _ (List.mem_cons_self ..)) fun _ =>
      returnsAt_bind (returnsAt_collectM fun _ hb => h _ (List.mem_cons_of_mem _ hb)) fun _ => returnsAt_pure _

theorem returnsAt_nilFrom (b : QB) (dep : Deps) : ReturnsAt (nilFrom b dep) := by
  refine returnsAt_bind (returnsAt_collectM fun t _ => ?_) fun _ => returnsAt_pure _
  split
  · exact returnsAt_pure _
  · refine returnsAt_bind (returnsAt_wrapErr _ ?_) fun _ => returnsAt_pure _
    split
    · exact returnsAt_err _
    · exact returnsAt_pure _

/-- In the state `s`, `m` leaves the state as it is, and where it does not return an error `m'` does the same. -/
def Shadows (s : St) (m m' : M α) : Prop :=
  match m s with
  | (.ok a, t) => t = s ∧ m' s = (.ok a, s)
  | (.err _, t) => t = s
  | (.panic p, t) => t = s ∧ (m' s).1 = .panic p
  | (.oof, t) => t = s ∧ (m' s).1 = .oof

theorem shadows_of_err {s : St} {m m' : M α} (h : ∃ e, m s = (.err e, s)) : Shadows s m m' := by
  obtain ⟨e, h⟩ := h
  unfold Shadows
  rw [h]

theorem shadows_bind {s : St} {m m' : M α} {f f' : α → M β} (hm : Shadows s m m') (hf : ∀ a, m s = (.ok a, s) → Shadows s (f a) (f' a)) :
    Shadows s (M.bind m f) (M.bind m' f') := by
  unfold Shadows at hm
  match hms : m s, hm with
  | (.ok a, t), hm =>
    obtain ⟨rfl, hm⟩ := hm
    have h := hf a hms
    unfold Shadows at h ⊢
    rw [bind_of_ok hms, bind_of_ok hm]
    exact h
  | (.err e, t), hm =>
    cases hm
    exact shadows_of_err ⟨e, by unfold M.bind; rw [hms]⟩
  | (.panic p, t), hm =>
    obtain ⟨rfl, hm⟩ := hm
    unfold Shadows M.bind
    rw [hms]
    refine ⟨rfl, ?_⟩
    match hx : m' t, hm with
    | (.panic q, u), hm => cases hm; rfl
  | (.oof, t), hm =>
    obtain ⟨rfl, hm⟩ := hm
    unfold Shadows M.bind
    rw [hms]
    refine ⟨rfl, ?_⟩
    match hx : m' t, hm with
    | (.oof, u), hm => rfl

theorem shadows_same {s : St} {m : M α} (h : KeepsAt s m) : Shadows s m m := by
  unfold KeepsAt at h
  unfold Shadows
  match hm : m s with
  | (.ok a, t) => rw [hm] at h; cases h; exact ⟨rfl, rfl⟩
  | (.err e, t) => rw [hm] at h; exact h
  | (.panic p, t) => rw [hm] at h; exact ⟨h, rfl⟩
  | (.oof, t) => rw [hm] at h; exact ⟨h, rfl⟩

theorem shadows_wrapErr {s : St} (w : Str) {m m' : M α} (hm : Shadows s m m') : Shadows s (M.wrapErr w m) (M.wrapErr w m') := by
  unfold Shadows at hm
  unfold Shadows M.wrapErr
  match hms : m s, hm with
  | (.ok a, t), hm => obtain ⟨rfl, hm⟩ := hm; rw [hm]; exact ⟨rfl, rfl⟩
  | (.err e, t), hm => exact hm
  | (.panic p, t), hm =>
    obtain ⟨rfl, hm⟩ := hm
    refine ⟨rfl, ?_⟩
    match hx : m' t, hm with
    | (.panic q, u), hm => cases hm; rfl
  | (.oof, t), hm =>
    obtain ⟨rfl, hm⟩ := hm
    refine ⟨rfl, ?_⟩
    match hx : m' t, hm with
    | (.oof, u), hm => rfl

theorem shadows_collectM {s : St} {f f' : α → M (Option Str)} :
    ∀ {l : List α}, (∀ a ∈ l, Shadows s (f a) (f' a)) → Shadows s (collectM f l) (collectM f' l)
  | [], _ => ⟨rfl, rfl⟩
  | _ :: _, h => shadows_bind (h _ (List.mem_cons_self ..)) fun _ _ =>
      shadows_bind (shadows_collectM fun _ hb => h _ (List.mem_cons_of_mem _ hb)) fun _ _ => ⟨rfl, rfl⟩

/-- After the CTEs comes an error. -/
theorem nil_rest {s : St} {r : Nat} {b : QB} (hb : s.heap[r]? = some b) (dep : Deps) :
    ∃ e, M.bind (getQB r) (fun b => M.bind (nilFrom b dep) fun _ => M.bind (getQB r) fun _ => (.err nilContextErr : M Str)) s =
      (.err e, s) := by
  have hg : getQB r s = (.ok b, s) := by unfold getQB; rw [hb]
  rw [bind_of_ok hg]
  rcases returnsAt_nilFrom b dep s with ⟨t, h⟩ | ⟨e, h⟩
  · rw [bind_of_ok h, bind_of_ok hg]; exact ⟨_, rfl⟩
  · exact ⟨e, by unfold M.bind; rw [h]⟩

/-- With a nil context a query builder does what it does with a context, up to its first error. -/
theorem nilInternal_shadows (L : GoLib) {nrec : Builder → M Str} {rec : Rec} (fuel : Nat) (ctx : Ctx) {r : Nat} {s : St}
    (h : ∀ b, s.heap[r]? = some b → ∀ c ∈ b.ctes, Shadows s (nrec c.builder) (rec ctx (.build c.builder))) :
    Shadows s (nilInternal nrec r) (buildInternal L rec fuel ctx r) := by
  rw [nilInternal_eq]
  unfold buildInternal
  refine shadows_bind (shadows_same (keepsAt_getQB s r)) fun b hg => ?_
  have hb : s.heap[r]? = some b := by
    unfold getQB at hg
    match hx : s.heap[r]?, hg with
    | some c, hg => cases hg; rfl
  by_cases hne : b.errors.length ≠ 0
  · rw [if_pos hne]; exact shadows_of_err ⟨_, rfl⟩
  · rw [if_neg hne, if_neg hne]
    refine shadows_bind (shadows_same rfl) fun dep _ => shadows_bind ?_ fun _ _ => shadows_of_err (nil_rest hb dep)
    refine shadows_bind (shadows_collectM fun c hc => ?_) fun _ _ => ⟨rfl, rfl⟩
    split
    · exact ⟨rfl, rfl⟩
    · exact shadows_bind (shadows_wrapErr _ (h b hb c hc)) fun _ _ => ⟨rfl, rfl⟩

theorem nilBuild_shadows (L : GoLib) (orphan : List (Str × FuncVal) → Builder → M (Except Err Str)) (ctx : Ctx) :
    ∀ (n : Nat) (b : Builder) (s : St), Builder.NotUser b →
      (∀ q ∈ s.heap, ∀ c ∈ q.ctes, Builder.NotUser c.builder) →
      Shadows s (nilBuild L orphan n b) (run L n ctx (.build b))
  | 0, _, _, _, _ => ⟨rfl, rfl⟩
  | n + 1, b, s, hb, h => by
    cases b with
    | custom p => exact hb.elim
    | qb r =>
      exact nilInternal_shadows L n ctx fun q hq c hc => nilBuild_shadows L orphan ctx n c.builder s
        (h q (List.mem_of_getElem? hq) c hc) h
    | frag f => exact shadows_of_err ⟨_, rfl⟩
    | column t f => exact shadows_of_err ⟨_, rfl⟩
    | _ => exact ⟨rfl, rfl⟩

/-- In the state `s`, `m'` gives what `m` gives, if `m` ends. -/
def Extends (s : St) (m m' : M α) : Prop := (m s).1 ≠ .oof → m' s = m s

theorem extends_bind {s : St} {m m' : M α} {f f' : α → M β} (hm : Extends s m m') (hk : KeepsAt s m)
    (hf : ∀ a, m s = (.ok a, s) → Extends s (f a) (f' a)) : Extends s (M.bind m f) (M.bind m' f') := by
  unfold Extends KeepsAt M.bind at *
  match hms : m s with
  | (.ok a, t) =>
    rw [hms] at hm hk
    cases hk
    rw [hm (by simp)]
    exact hf a hms
  | (.err e, t) => rw [hms] at hm; rw [hm (by simp)]; intro _; rfl
  | (.panic p, t) => rw [hms] at hm; rw [hm (by simp)]; intro _; rfl
  | (.oof, t) => exact fun h => absurd rfl h

theorem extends_wrapErr {s : St} (w : Str) {m m' : M α} (hm : Extends s m m') : Extends s (M.wrapErr w m) (M.wrapErr w m') := by
  unfold Extends M.wrapErr at *
  match hms : m s with
  | (.ok a, t) => rw [hms] at hm; rw [hm (by simp)]; intro _; rfl
  | (.err e, t) => rw [hms] at hm; rw [hm (by simp)]; intro _; rfl
  | (.panic p, t) => rw [hms] at hm; rw [hm (by simp)]; intro _; rfl
  | (.oof, t) => exact fun h => absurd rfl h

theorem extends_collectM {s : St} {f f' : α → M (Option Str)} :
    ∀ {l : List α}, (∀ a ∈ l, Extends s (f a) (f' a) ∧ KeepsAt s (f a)) → Extends s (collectM f l) (collectM f' l)
  | [], _ => fun _ => rfl
  | _ :: _, h => extends_bind (h _ (List.mem_cons_self ..)).1 (h _ (List.mem_cons_self ..)).2 fun _ _ =>
      extends_bind (extends_collectM fun _ hb => h _ (List.mem_cons_of_mem _ hb))
        (keepsAt_collectM fun _ hb => (h _ (List.mem_cons_of_mem _ hb)).2) fun _ _ _ => rfl

theorem nilBuild_succ (L : GoLib) (orphan : List (Str × FuncVal) → Builder → M (Except Err Str)) :
    ∀ (n : Nat) (b : Builder) (s : St), Builder.NotUser b →
      (∀ q ∈ s.heap, ∀ c ∈ q.ctes, Builder.NotUser c.builder) →
      Extends s (nilBuild L orphan n b) (nilBuild L orphan (n + 1) b)
  | 0, _, _, _, _ => fun h => absurd rfl h
  | n + 1, b, s, hb, h => by
    cases b with
    | custom p => exact hb.elim
    | qb r =>
      show Extends s (nilInternal (nilBuild L orphan n) r) (nilInternal (nilBuild L orphan (n + 1)) r)
      rw [nilInternal_eq, nilInternal_eq]
      refine extends_bind (fun _ => rfl) (keepsAt_getQB s r) fun b hg => ?_
      have hb : s.heap[r]? = some b := by
        unfold getQB at hg
        match hx : s.heap[r]?, hg with
        | some c, hg => cases hg; rfl
      have hu := h b (List.mem_of_getElem? hb)
      by_cases hne : b.errors.length ≠ 0
      · rw [if_pos hne, if_pos hne]; exact fun _ => rfl
      · rw [if_neg hne, if_neg hne]
        have hk : ∀ (dep : Deps), ∀ c ∈ b.ctes, KeepsAt s (if (⟨c.name, []⟩ : TableAliased) ∉ dep then (M.pure none : M (Option Str))
            else M.bind (.wrapErr c.name (nilBuild L orphan n c.builder)) fun q =>
              .pure (if q = [] then none else some (c.name ++ lit " AS (" ++ q ++ lit ")"))) := by
          intro dep c hc
          split
          · rfl
          · exact keepsAt_bind (keepsAt_wrapErr _ (nilBuild_keeps L orphan n c.builder s (hu c hc) h)) fun _ => rfl
        refine extends_bind (fun _ => rfl) rfl fun dep _ => extends_bind ?_ ?_ fun _ _ _ => rfl
        · refine extends_bind (extends_collectM fun c hc => ⟨?_, hk dep c hc⟩) (keepsAt_collectM (hk dep)) fun _ _ _ => rfl
          split
          · exact fun _ => rfl
          · exact extends_bind (extends_wrapErr _ (nilBuild_succ L orphan n c.builder s (hu c hc) h))
              (keepsAt_wrapErr _ (nilBuild_keeps L orphan n c.builder s (hu c hc) h)) fun _ _ _ => rfl
        · exact keepsAt_bind (keepsAt_collectM (hk dep)) fun _ => rfl
    | _ => exact fun _ => rfl

theorem nilBuild_more (L : GoLib) (orphan : List (Str × FuncVal) → Builder → M (Except Err Str)) {n : Nat} {b : Builder} {s : St}
    (hb : Builder.NotUser b) (h : ∀ q ∈ s.heap, ∀ c ∈ q.ctes, Builder.NotUser c.builder) (hn : (nilBuild L orphan n b s).1 ≠ .oof) :
    ∀ k, nilBuild L orphan (n + k) b s = nilBuild L orphan n b s
  | 0 => rfl
  | k + 1 => by
    have ih := nilBuild_more L orphan hb h hn k
    rw [← ih] at hn ⊢
    exact nilBuild_succ L orphan (n + k) b s hb h hn

end Sqlf

import Verif.Proofs.Footprint
/-!
# Invariants of all schedules
-/

namespace Sqlf

open Spec

/-! ## goroutines that share no query builder -/

theorem getElem?_assign_self (r : Nat) (u : QB → QB) (h : List QB) : (assign r u h)[r]? = h[r]?.map u := by
  unfold assign
  cases e : h[r]? with
  | none => exact e
  | some b => exact List.getElem?_set_self (List.getElem?_eq_some_iff.1 e).1

theorem getElem?_assign_ne {r k : Nat} (hk : r ≠ k) (u : QB → QB) (h : List QB) : (assign r u h)[k]? = h[k]? := by
  unfold assign
  split
  · exact List.getElem?_set_ne hk
  · rfl

theorem assign_agrees {S : Nat → Prop} {h h' : List QB} (e : ∀ r, S r → h[r]? = h'[r]?) (r : Nat) (u : QB → QB) :
    ∀ k, S k → (assign r u h)[k]? = (assign r u h')[k]? := by
  intro k hk
  by_cases hr : r = k
  · subst hr; rw [getElem?_assign_self, getElem?_assign_self, e r hk]
  · rw [getElem?_assign_ne hr, getElem?_assign_ne hr, e k hk]

theorem assign_closed {S : Nat → Prop} {h : List QB} (hc : ClosedIn S h) (r : Nat) {u : QB → QB}
    (hu : S r → ∀ b, QBIn S b → QBIn S (u b)) : ClosedIn S (assign r u h) := by
  intro k b hk hb
  by_cases hr : r = k
  · subst hr
    rw [getElem?_assign_self] at hb
    cases e : h[r]? with
    | none => rw [e] at hb; cases hb
    | some b0 => rw [e] at hb; cases hb; exact hu hk b0 (hc r b0 hk e)
  · rw [getElem?_assign_ne hr] at hb
    exact hc k b hk hb

theorem AccessIn.step {S : Nat → Prop} {t : Th γ} (ht : AccessIn S t) {h : List QB} (hc : ClosedIn S h) :
    AccessIn S (t.step h).1 ∧ ClosedIn S (t.step h).2 ∧ ∀ k, ¬ S k → (t.step h).2[k]? = h[k]? := by
  cases t with
  | done a => exact ⟨trivial, hc, fun _ _ => rfl⟩
  | read r fs k => exact ⟨ht.2 _ fun b hb => hc r b ht.1 hb, hc, fun _ _ => rfl⟩
  | write r f u k =>
    refine ⟨ht.2.2 _, assign_closed hc r fun _ => ht.2.1, fun k hk => getElem?_assign_ne ?_ u h⟩
    rintro rfl
    exact hk ht.1

/-- What goroutine `i` is to do, in memory where only the query builders in `S` matter. -/
def Follower (S : Nat → Prop) (h : List QB) (t : Th γ) (a : γ) : Prop :=
  ∃ href hend, (∀ r, S r → href[r]? = h[r]?) ∧ ClosedIn S href ∧ AccessIn S t ∧ Ends Eq (fun _ _ _ => True) href t a hend

theorem Follower.step {S : Nat → Prop} {h : List QB} {t : Th γ} {a : γ} (ht : Follower S h t a) :
    Follower S (t.step h).2 (t.step h).1 a := by
  obtain ⟨href, hend, he, hc, hw, hs⟩ := ht
  have hw' := hw.step hc
  obtain ⟨-, href', hK, hs'⟩ := hs.step rfl
  cases t with
  | done a' => exact ⟨href, hend, he, hc, hw, hs⟩
  | read r fs k =>
    refine ⟨href, hend, he, hc, ?_, ?_⟩
    · show AccessIn S (k h[r]?)
      rw [← he r hw.1]; exact hw'.1
    · show Ends _ _ _ (k h[r]?) _ _
      rw [← he r hw.1]; exact hs href rfl
  | write r f u k =>
    subst hK
    refine ⟨_, hend, assign_agrees he r u, hw'.2.1, ?_, ?_⟩
    · show AccessIn S (k h[r]?.isSome)
      rw [← he r hw.1]; exact hw'.1
    · show Ends _ _ _ (k h[r]?.isSome) _ _
      rw [← he r hw.1]; exact hs'

theorem Follower.other {S : Nat → Prop} {h h' : List QB} {t : Th γ} {a : γ} (ht : Follower S h t a)
    (e : ∀ r, S r → h'[r]? = h[r]?) : Follower S h' t a := by
  obtain ⟨href, hend, he, hc, hw, hs⟩ := ht
  exact ⟨href, hend, fun r hr => (he r hr).trans (e r hr).symm, hc, hw, hs⟩

/-- Goroutine `i` accesses `Mine` and ends with `a`; the others access `Others`. -/
structure Sys.Splits (s : Sys γ) (i : Nat) (Mine Others : Nat → Prop) (a : γ) : Prop where
  mine : ∀ t, s.threads[i]? = some t → Follower Mine s.heap t a
  others : ∀ j t, j ≠ i → s.threads[j]? = some t → AccessIn Others t
  closed : ClosedIn Others s.heap
  apart : ∀ r, Mine r → ¬ Others r

theorem Follower.within {S : Nat → Prop} {h : List QB} {t : Th γ} {a : γ} (ht : Follower S h t a) : AccessIn S t := by
  obtain ⟨_, _, _, _, hw, _⟩ := ht
  exact hw

theorem Follower.unchanged {S : Nat → Prop} {h : List QB} {t : Th γ} {a : γ} (ht : Follower S h t a) :
    ∀ k, ¬ S k → (t.step h).2[k]? = h[k]? := by
  intro k hk
  cases t with
  | done a => rfl
  | read r fs g => rfl
  | write r f u g =>
    refine getElem?_assign_ne ?_ u h
    rintro rfl
    exact hk ht.within.1

theorem Sys.Splits.step {s : Sys γ} {i : Nat} {Mine Others : Nat → Prop} {a : γ} (h : s.Splits i Mine Others a) (j : Nat) :
    (s.step j).Splits i Mine Others a := by
  unfold Sys.step
  cases hj : s.threads[j]? with
  | none => exact h
  | some t =>
    have hl := (List.getElem?_eq_some_iff.1 hj).1
    by_cases e : j = i
    · subst e
      have hm := h.mine t hj
      refine ⟨fun t' ht' => ?_, fun k t' hk ht' => ?_, fun r b hr hb => ?_, h.apart⟩
      · dsimp only at ht'
        rw [List.getElem?_set_self hl] at ht'
        cases ht'
        exact hm.step
      · dsimp only at ht'
        rw [List.getElem?_set_ne (Ne.symm hk)] at ht'
        exact h.others k t' hk ht'
      · dsimp only at hb
        rw [hm.unchanged r fun hm => h.apart r hm hr] at hb
        exact h.closed r b hr hb
    · have ho := (h.others j t e hj).step h.closed
      refine ⟨fun t' ht' => ?_, fun k t' hk ht' => ?_, ho.2.1, h.apart⟩
      · dsimp only at ht'
        rw [List.getElem?_set_ne e] at ht'
        exact (h.mine t' ht').other fun r hr => ho.2.2 r (h.apart r hr)
      · dsimp only at ht'
        by_cases ek : j = k
        · subst ek
          rw [List.getElem?_set_self hl] at ht'
          cases ht'
          exact ho.1
        · rw [List.getElem?_set_ne ek] at ht'
          exact h.others k t' hk ht'

theorem Sys.Splits.run {s : Sys γ} {i : Nat} {Mine Others : Nat → Prop} {a : γ} (h : s.Splits i Mine Others a)
    (js : List Nat) : (s.run js).Splits i Mine Others a := by
  induction js generalizing s with
  | nil => exact h
  | cons j js ih => exact ih (h.step j)

theorem Sys.Splits.result {s : Sys γ} {i : Nat} {Mine Others : Nat → Prop} {a : γ} (h : s.Splits i Mine Others a)
    {r : γ} (hr : s.result i = some r) : r = a := by
  unfold Sys.result at hr
  split at hr
  · rename_i a' hi
    cases hr
    obtain ⟨_, _, _, _, _, he⟩ := h.mine _ hi
    exact he.1
  · cases hr

/-- What goroutine `i` would do alone. -/
theorem started_get {L : GoLib} {fuel : Nat} {builds : List (Builder × Style)} {heap : List QB} {i : Nat} :
    (started L fuel builds heap).threads[i]? = builds[i]?.map fun b => buildThread L fuel b.1 b.2 := by
  unfold started
  exact List.getElem?_map ..

theorem Spec.Apart.splits {builds : List (Builder × Style)} {heap : List QB} {i : Nat} {Mine Others : Nat → Prop}
    (h : Apart builds heap i Mine Others) (L : GoLib) (fuel : Nat) {b : Builder} {style : Style}
    (hb : builds[i]? = some (b, style)) : (started L fuel builds heap).Splits i Mine Others
      ((buildQueryS L fuel b style heap).1, (buildQueryS L fuel b style heap).2.log) := by
  refine ⟨fun t ht => ?_, fun j t hj ht => ?_, h.othersClosed, h.apart⟩
  · rw [started_get, hb] at ht
    cases ht
    exact ⟨heap, _, fun _ _ => rfl, h.closed, buildThread_in L fuel (h.mine b style hb) style,
      buildThread_ends eq_sameLook L fuel b style heap⟩
  · rw [started_get] at ht
    cases e : builds[j]? with
    | none => rw [e] at ht; cases ht
    | some p =>
      rw [e] at ht
      cases ht
      exact buildThread_in L fuel (h.others j p.1 p.2 hj e) p.2

theorem nextAccess_within {S : Nat → Prop} {t : Th γ} (ht : AccessIn S t) {r : Nat} {fs : List Field} {w : Bool}
    (h : nextAccess t = some (r, fs, w)) : S r := by
  cases t with
  | done a => cases h
  | read r fs k => cases h; exact ht.1
  | write r f u k => cases h; exact ht.1

theorem Sys.Splits.noRace {s : Sys γ} {i : Nat} {Mine Others : Nat → Prop} {a : γ} (h : s.Splits i Mine Others a)
    (j : Nat) (f : Field) : ¬ Races s i j f := by
  rintro ⟨t, u, r, fs, gs, w, v, hne, ht, hu, h1, h2, -⟩
  exact h.apart r (nextAccess_within (h.mine t ht).within h1) (nextAccess_within (h.others j u (Ne.symm hne) hu) h2)

mutual
theorem refsIn_all : ∀ b, RefsIn (fun _ => True) b
  | .frag f => refsInF_all f
  | .column _ f => refsInF_all f
  | .qb _ => trivial
  | .custom p => refsInP_all p
  | .nil => trivial
  | .nilFrag => trivial
  | .nilColumn => trivial
  | .columnNilFrag _ => trivial
  | .table _ => trivial
  | .aliased _ _ => trivial
  | .nilQb => trivial
theorem refsInF_all : ∀ f, RefsInF (fun _ => True) f
  | .mk _ _ frags _ _ => refsInL_all frags
theorem refsInL_all : ∀ bs, RefsInL (fun _ => True) bs
  | [] => trivial
  | b :: bs => ⟨refsIn_all b, refsInL_all bs⟩
theorem refsInP_all : ∀ p, RefsInP (fun _ => True) p
  | .ret _ => trivial
  | .fail _ => trivial
  | .panic _ _ => trivial
  | .commit _ k => fun t => refsInP_all (k t)
  | .args k => fun vs => refsInP_all (k vs)
  | .build b k => ⟨refsIn_all b, fun r => refsInP_all (k r)⟩
  | .buildWith fm b k => ⟨refsInM_all fm, refsIn_all b, fun r => refsInP_all (k r)⟩
  | .query _ b k => ⟨refsIn_all b, fun r => refsInP_all (k r)⟩
theorem refsInM_all : ∀ fm, RefsInM (fun _ => True) fm
  | [] => trivial
  | p :: fm => ⟨refsInE_all p, refsInM_all fm⟩
theorem refsInE_all : ∀ e, RefsInE (fun _ => True) e
  | (_, v) => refsInV_all v
theorem refsInV_all : ∀ v, RefsInV (fun _ => True) v
  | .notFunc => trivial
  | .func _ _ _ body => refsInB_all body
theorem refsInB_all : ∀ b, RefsInB (fun _ => True) b
  | .builtin _ => trivial
  | .custom p => fun vs => refsInP_all (p vs)
end

/-! ## goroutines that share query builders -/

/-- With `Tracks`, an invariant of memory. -/
theorem Sys.Tracks.keeps {K : List QB → List QB → Prop} {G : Nat × Field → List QB → List QB → Prop}
    (stable : ∀ f h h1 h2, K h h1 → G f h1 h2 → K h h2) {I : List QB → Prop} (hI : ∀ f h h', G f h h' → I h → I h')
    {s : Sys γ} {goal : Nat → γ} (h : s.Tracks K G goal) (hs : I s.heap) (is : List Nat) : I (s.run is).heap := by
  induction is generalizing s with
  | nil => exact hs
  | cons i is ih =>
    refine ih (h.step stable i) ?_
    unfold Sys.step
    cases hi : s.threads[i]? with
    | none => exact hs
    | some t =>
      obtain ⟨href, hend, hK, he⟩ := h i t hi
      obtain ⟨hG | ⟨f, hG⟩, -⟩ := he.step hK
      · show I (t.step s.heap).2
        rw [hG]; exact hs
      · exact hI f _ _ hG hs

theorem steady_stable : ∀ f h h1 h2, SteadyMem h h1 → SetsPrefix f h1 h2 → SteadyMem h h2 :=
  fun _ _ _ _ h h' => steadyMem_stable h h'

theorem setsPrefix_only {h h1 h2 : List QB} {f : Nat × Field} (hG : SetsPrefix f h1 h2) (hK : HeapRel SelectsOnly h h1) :
    HeapRel SelectsOnly h h2 := by
  obtain ⟨-, r, b, hb, rfl⟩ := hG
  refine ⟨fun k hk => ?_, fun k c hc => ?_⟩
  · have := hK.none k hk
    rw [List.getElem?_set]
    split
    · rename_i e; subst e; rw [hb] at this; cases this
    · exact this
  · obtain ⟨c', h3, h4⟩ := hK.some k c hc
    by_cases e : r = k
    · subst e
      rw [hb] at h3; cases h3
      exact ⟨_, List.getElem?_set_self (List.getElem?_eq_some_iff.1 hb).1, h4.trans ⟨_, rfl⟩⟩
    · exact ⟨c', by rw [List.getElem?_set_ne e]; exact h3, h4⟩

theorem started_tracks (L : GoLib) (fuel : Nat) (builds : List (Builder × Style)) {heap : List QB}
    (hs : ∀ b ∈ heap, SteadyQB b) : (started L fuel builds heap).Tracks SteadyMem SetsPrefix fun i =>
      match builds[i]? with
      | some (b, style) => ((buildQueryS L fuel b style heap).1, (buildQueryS L fuel b style heap).2.log)
      | none => (.oof, []) := by
  intro i t ht
  rw [started_get] at ht
  cases e : builds[i]? with
  | none => rw [e] at ht; cases ht
  | some p =>
    rw [e] at ht
    cases ht
    refine ⟨heap, (buildQueryS L fuel p.1 p.2 heap).2.heap, steadyMem_refl hs, ?_⟩
    dsimp only
    rw [e]
    exact buildThread_ends steady_sameLook L fuel p.1 p.2 heap

/-- The writes are to prefixes. -/
theorem Sys.Tracks.race {s : Sys γ} {goal : Nat → γ} (h : s.Tracks SteadyMem SetsPrefix goal) {i j : Nat} {f : Field}
    (hr : Races s i j f) : f = .selectsPrefix := by
  have key : ∀ (i : Nat) (t : Th γ) (r : Nat) (fs : List Field), s.threads[i]? = some t → nextAccess t = some (r, fs, true) → fs = [.selectsPrefix] := by
    intro i t r fs ht hn
    obtain ⟨href, hend, hK, he⟩ := h i t ht
    cases t with
    | done a => cases hn
    | read r fs k => cases hn
    | write r f u k =>
      cases hn
      obtain ⟨href', he⟩ := he
      rw [show f = .selectsPrefix from (he _ hK).2.1.1]
  obtain ⟨t, u, r, fs, gs, w, v, -, ht, hu, h1, h2, hf, hg, hw⟩ := hr
  rcases hw with rfl | rfl
  · rw [key i t r fs ht h1] at hf; exact List.mem_singleton.1 hf
  · rw [key j u r gs hu h2] at hg; exact List.mem_singleton.1 hg

theorem steady_of_made {L : GoLib} {heap : List QB} (hh : ∀ b ∈ heap, ∃ cs, Made L cs b ∧ Repeatable cs) :
    ∀ b ∈ heap, SteadyQB b := by
  intro b hb
  obtain ⟨cs, h1, h2, h3⟩ := hh b hb
  have hf := h1.fields
  unfold SteadyQB
  rw [hf.orders, hf.distinct]
  exact ⟨h2, h3⟩

/-! ## alone -/

theorem alone_of_run {L : GoLib} {b : Builder} {style : Style} {heap : List QB} {r : Out (Str × List Val) × List Str} {n : Nat}
    (h : ((buildQueryS L n b style heap).1, (buildQueryS L n b style heap).2.log) = r) (hne : r.1 ≠ .oof) :
    Alone L b style heap r := by
  refine ⟨hne, n, fun m hm => ?_⟩
  rw [buildQueryS_eq] at h ⊢
  have h1 : queryOut (run L n rootCtx (.build b) (St.init style heap)) = r.1 := by rw [← h]
  rw [run_le L hm rootCtx (.build b) _ (by rw [Ne, ← queryOut_oof, h1]; exact hne), h]

theorem returns_iff_alone {L : GoLib} {b : Builder} {style : Style} {heap : List QB} {o : Out (Str × List Val)} :
    Returns L b style heap o ↔ ∃ log, Alone L b style heap (o, log) := by
  constructor
  · rintro ⟨hne, N, h⟩
    refine ⟨(buildQueryS L N b style heap).2.log, alone_of_run (n := N) ?_ hne⟩
    rw [← h N (Nat.le_refl _)]
    rfl
  · rintro ⟨log, hne, N, h⟩
    refine ⟨hne, N, fun n hn => ?_⟩
    have := congrArg Prod.fst (h n hn)
    exact this

theorem races_of_accesses {s : Sys γ} {i j : Nat} {f : Field} {r : Nat} {fs gs : List Field} {w v : Bool} (hne : i ≠ j)
    (h1 : s.threads[i]?.bind nextAccess = some (r, fs, w)) (h2 : s.threads[j]?.bind nextAccess = some (r, gs, v))
    (hf : f ∈ fs) (hg : f ∈ gs) (hw : w = true ∨ v = true) : Races s i j f := by
  cases ht : s.threads[i]? with
  | none => rw [ht] at h1; cases h1
  | some t =>
    cases hu : s.threads[j]? with
    | none => rw [hu] at h2; cases h2
    | some u =>
      rw [ht] at h1
      rw [hu] at h2
      exact ⟨t, u, r, fs, gs, w, v, hne, ht, hu, h1, h2, hf, hg, hw⟩

end Sqlf

import Verif.Proofs.Reorder
/-!
# Depth-first search with a set of visited keys
-/

namespace Sqlf

open Spec

theorem foldOut_ok {f : α → β → Out α} {a : α} {x : β} {xs : List β} {r : α} :
    foldOut f a (x :: xs) = .ok r ↔ ∃ a', f a x = .ok a' ∧ foldOut f a' xs = .ok r := by
  constructor
  · intro h
    unfold foldOut at h
    cases hx : f a x with
    | ok a' => rw [hx] at h; exact ⟨a', rfl, h⟩
    | err e => rw [hx] at h; cases h
    | panic p => rw [hx] at h; cases h
    | oof => rw [hx] at h; cases h
  · rintro ⟨a', h1, h2⟩
    unfold foldOut
    rw [h1]
    exact h2

section
variable {N K : Type} [DecidableEq K] (key : N → Out K) (succ : N → Out (List N))

/-- The search: the key of a node, unless it has been visited, is added before its successors
are searched. -/
def dfs : Nat → List K → N → Out (List K)
  | 0, _, _ => .oof
  | n + 1, dep, x =>
    match key x with
    | .ok k =>
      if k ∈ dep then .ok dep
      else match succ x with
        | .ok l => foldOut (dfs n) (k :: dep) l
        | .err e => .err e
        | .panic p => .panic p
        | .oof => .oof
    | .err e => .err e
    | .panic p => .panic p
    | .oof => .oof

/-- Reachable by successors. -/
inductive Reach : N → N → Prop where
  | refl (x : N) : Reach x x
  | step {x y z : N} {l : List N} (h : Reach x y) (hl : succ y = .ok l) (hz : z ∈ l) : Reach x z

variable {key succ}

theorem Reach.head {x y z : N} {l : List N} (hl : succ x = .ok l) (hy : y ∈ l) (h : Reach succ y z) :
    Reach succ x z := by
  induction h with
  | refl => exact .step (.refl x) hl hy
  | step _ hl' hz ih => exact .step ih hl' hz

theorem Reach.trans {x y z : N} (h : Reach succ x y) (h' : Reach succ y z) : Reach succ x z := by
  induction h' with
  | refl => exact h
  | step _ hl hz ih => exact .step ih hl hz

/-- A node whose successors have all been visited. -/
def Closed (key : N → Out K) (succ : N → Out (List N)) (dep : List K) (y : N) : Prop :=
  ∃ l, succ y = .ok l ∧ ∀ z ∈ l, ∃ k, key z = .ok k ∧ k ∈ dep

theorem Closed.mono {dep dep' : List K} {y : N} (h : Closed key succ dep y) (hs : ∀ k ∈ dep, k ∈ dep') :
    Closed key succ dep' y := by
  obtain ⟨l, h1, h2⟩ := h
  refine ⟨l, h1, fun z hz => ?_⟩
  obtain ⟨k, h3, h4⟩ := h2 z hz
  exact ⟨k, h3, hs k h4⟩

/-- What a successful search has done. -/
structure Found (key : N → Out K) (succ : N → Out (List N)) (xs : List N) (dep dep' : List K) : Prop where
  mono : ∀ k ∈ dep, k ∈ dep'
  visited : ∀ x ∈ xs, ∃ k, key x = .ok k ∧ k ∈ dep'
  new : ∀ k ∈ dep', k ∈ dep ∨ ∃ x ∈ xs, ∃ y, Reach succ x y ∧ key y = .ok k ∧ Closed key succ dep' y

theorem Found.fold {f : List K → N → Out (List K)}
    (hf : ∀ {dep dep' x}, f dep x = .ok dep' → Found key succ [x] dep dep') {xs : List N} {dep dep' : List K}
    (h : foldOut f dep xs = .ok dep') : Found key succ xs dep dep' := by
  induction xs generalizing dep with
  | nil => cases h; exact ⟨fun _ h => h, by simp, fun k h => .inl h⟩
  | cons x xs ih =>
    obtain ⟨d, h1, h2⟩ := foldOut_ok.1 h
    have i1 := hf h1
    have i2 := ih h2
    refine ⟨fun k hk => i2.mono k (i1.mono k hk), ?_, ?_⟩
    · intro y hy
      rcases List.mem_cons.1 hy with rfl | hy
      · obtain ⟨k, h3, h4⟩ := i1.visited y (by simp)
        exact ⟨k, h3, i2.mono k h4⟩
      · exact i2.visited y hy
    · intro k hk
      rcases i2.new k hk with h3 | ⟨y, hy, z, h3⟩
      · rcases i1.new k h3 with h4 | ⟨y, hy, z, h4, h5, h6⟩
        · exact .inl h4
        · rw [List.mem_singleton] at hy
          subst hy
          exact .inr ⟨y, by simp, z, h4, h5, h6.mono i2.mono⟩
      · exact .inr ⟨y, by simp [hy], z, h3⟩

theorem dfs_found {n : Nat} {dep dep' : List K} {x : N} (h : dfs key succ n dep x = .ok dep') :
    Found key succ [x] dep dep' := by
  induction n generalizing dep dep' x with
  | zero => cases h
  | succ n ih =>
    unfold dfs at h
    cases hk : key x with
    | ok k =>
      rw [hk] at h
      dsimp only at h
      split at h
      · cases h
        rename_i hm
        exact ⟨fun _ h => h, fun y hy => ⟨k, by rw [List.mem_singleton.1 hy, hk], hm⟩, fun _ h => .inl h⟩
      · rename_i hm
        cases hs : succ x with
        | ok l =>
          rw [hs] at h
          have hf := Found.fold ih h
          have hx : k ∈ dep' := hf.mono k (by simp)
          refine ⟨fun j hj => hf.mono j (by simp [hj]), fun y hy => ⟨k, by rw [List.mem_singleton.1 hy, hk], hx⟩, ?_⟩
          intro j hj
          rcases hf.new j hj with h1 | ⟨y, hy, z, h2, h3, h4⟩
          · rcases List.mem_cons.1 h1 with rfl | h1
            · exact .inr ⟨x, by simp, x, .refl x, hk, l, hs, hf.visited⟩
            · exact .inl h1
          · exact .inr ⟨x, by simp, z, h2.head hs hy, h3, h4⟩
        | err e => rw [hs] at h; cases h
        | panic p => rw [hs] at h; cases h
        | oof => rw [hs] at h; cases h
    | err e => rw [hk] at h; cases h
    | panic p => rw [hk] at h; cases h
    | oof => rw [hk] at h; cases h

/-- Searching from several nodes. -/
theorem dfs_fold_found {n : Nat} {dep dep' : List K} {xs : List N} (h : foldOut (dfs key succ n) dep xs = .ok dep') :
    Found key succ xs dep dep' := Found.fold dfs_found h

/-- If nodes are known by their keys and what was visited before is closed, everything reachable
has been visited. -/
theorem Found.all {xs : List N} {dep dep' : List K} (h : Found key succ xs dep dep')
    (hinj : ∀ x y k, key x = .ok k → key y = .ok k → x = y)
    (hold : ∀ y k, key y = .ok k → k ∈ dep → Closed key succ dep' y) {x y : N} (hx : x ∈ xs)
    (hr : Reach succ x y) : ∃ k, key y = .ok k ∧ k ∈ dep' := by
  induction hr with
  | refl => exact h.visited x hx
  | step _ hl hz ih =>
    rename_i y z l _
    obtain ⟨k, hk, hm⟩ := ih
    have hc : Closed key succ dep' y := by
      rcases h.new k hm with h1 | ⟨_, _, w, _, h3, h4⟩
      · exact hold y k hk h1
      · rw [hinj y w k hk h3]; exact h4
    obtain ⟨l', h1, h2⟩ := hc
    rw [hl] at h1
    cases h1
    exact h2 z hz

/-! ### termination -/

/-- The number of keys of `U` not yet visited. -/
def left (U dep : List K) : Nat := (U.filter (· ∉ dep)).length

theorem left_le {U dep dep' : List K} (h : ∀ k ∈ dep, k ∈ dep') : left U dep' ≤ left U dep := by
  unfold left
  induction U with
  | nil => simp
  | cons u U ih =>
    simp only [List.filter_cons]
    by_cases h1 : u ∈ dep
    · simp [h1, h u h1]; simpa using ih
    · by_cases h2 : u ∈ dep'
      · simp [h1, h2]; have := ih; simp at this; omega
      · simp [h1, h2]; simpa using ih

theorem left_lt {U dep : List K} {k : K} (hk : k ∈ U) (hn : k ∉ dep) : left U (k :: dep) < left U dep := by
  unfold left
  induction U with
  | nil => cases hk
  | cons u U ih =>
    simp only [List.filter_cons]
    have hle := left_le (U := U) (dep := dep) (dep' := k :: dep) (fun _ h => List.mem_cons_of_mem _ h)
    unfold left at hle
    by_cases h1 : u = k
    · subst h1
      rw [if_neg (by simp), if_pos (by simp [hn])]
      exact Nat.lt_succ_of_le hle
    · have hk' : k ∈ U := by
        rcases List.mem_cons.1 hk with h | h
        · exact absurd h.symm h1
        · exact h
      have := ih hk'
      by_cases h2 : u ∈ dep
      · rw [if_neg (by simp [h2]), if_neg (by simp [h2])]; exact this
      · rw [if_pos (by simp [h1, h2]), if_pos (by simp [h2])]
        simp only [List.length_cons]; omega

theorem left_length (U dep : List K) : left U dep ≤ U.length := List.length_filter_le _ _

/-- More fuel than keys is enough, and how much more does not matter. -/
theorem dfs_fuel {U : List K} (hU : ∀ x k, key x = .ok k → k ∈ U) (hk : ∀ x, key x ≠ .oof)
    (hs : ∀ x, succ x ≠ .oof) {n : Nat} {dep : List K} (hn : left U dep < n) :
    (∀ x, dfs key succ n dep x ≠ .oof) ∧ ∀ m, n ≤ m → dfs key succ m dep = dfs key succ n dep := by
  induction n generalizing dep with
  | zero => omega
  | succ n ih =>
    have hfold : ∀ (l : List N) (d : List K), left U d < n →
        foldOut (dfs key succ n) d l ≠ .oof ∧ ∀ m, n ≤ m → foldOut (dfs key succ m) d l = foldOut (dfs key succ n) d l := by
      intro l
      induction l with
      | nil => intro d _; exact ⟨by simp [foldOut], fun _ _ => rfl⟩
      | cons x l ihl =>
        intro d hd
        obtain ⟨h1, h2⟩ := ih hd
        constructor
        · unfold foldOut
          cases hx : dfs key succ n d x with
          | ok d' => exact (ihl d' (Nat.lt_of_le_of_lt (left_le (dfs_found hx).mono) hd)).1
          | err e => simp
          | panic p => simp
          | oof => exact absurd hx (h1 x)
        · intro m hm
          unfold foldOut
          rw [h2 m hm]
          cases hx : dfs key succ n d x with
          | ok d' => exact (ihl d' (Nat.lt_of_le_of_lt (left_le (dfs_found hx).mono) hd)).2 m hm
          | err e => rfl
          | panic p => rfl
          | oof => rfl
    constructor
    · intro x
      unfold dfs
      cases hx : key x with
      | ok k =>
        dsimp only
        split
        · simp
        · rename_i hm
          cases hl : succ x with
          | ok l => exact (hfold l (k :: dep) (by have := left_lt (hU x k hx) hm; omega)).1
          | err e => simp
          | panic p => simp
          | oof => exact absurd hl (hs x)
      | err e => simp
      | panic p => simp
      | oof => exact absurd hx (hk x)
    · intro m hm
      cases m with
      | zero => omega
      | succ m =>
        funext x
        unfold dfs
        cases hx : key x with
        | ok k =>
          dsimp only
          split
          · rfl
          · rename_i hm'
            cases hl : succ x with
            | ok l => exact (hfold l (k :: dep) (by have := left_lt (hU x k hx) hm'; omega)).2 m (by omega)
            | err e => rfl
            | panic p => rfl
            | oof => rfl
        | err e => rfl
        | panic p => rfl
        | oof => rfl

/-- Why a search fails: a reachable node without key or successors. -/
theorem dfs_fails {n : Nat} {dep : List K} {x : N} {o : Out (List K)} (h : dfs key succ n dep x = o)
    (hok : ∀ d, o ≠ .ok d) (hoof : o ≠ .oof) : ∃ y, Reach succ x y ∧
      ((∃ e, (key y = .err e ∨ succ y = .err e) ∧ o = .err e) ∨
       ∃ p, (key y = .panic p ∨ succ y = .panic p) ∧ o = .panic p) := by
  induction n generalizing dep x o with
  | zero => exact absurd h.symm hoof
  | succ n ih =>
    unfold dfs at h
    cases hk : key x with
    | ok k =>
      rw [hk] at h
      dsimp only at h
      split at h
      · exact absurd h.symm (hok _)
      · cases hs : succ x with
        | ok l =>
          rw [hs] at h
          dsimp only at h
          obtain ⟨y, hy, hr⟩ : ∃ y ∈ l, ∃ d, dfs key succ n d y = o := by
            clear hs ih
            revert h
            generalize k :: dep = d
            intro h
            induction l generalizing d with
            | nil => exact absurd h.symm (hok _)
            | cons y l ihl =>
              unfold foldOut at h
              cases hy : dfs key succ n d y with
              | ok d' =>
                rw [hy] at h
                obtain ⟨z, hz, hz2⟩ := ihl d' h
                exact ⟨z, by simp [hz], hz2⟩
              | err e => rw [hy] at h; exact ⟨y, by simp, d, hy.trans h⟩
              | panic p => rw [hy] at h; exact ⟨y, by simp, d, hy.trans h⟩
              | oof => rw [hy] at h; exact ⟨y, by simp, d, hy.trans h⟩
          obtain ⟨d, hr⟩ := hr
          obtain ⟨z, hz, hz2⟩ := ih hr hok hoof
          exact ⟨z, hz.head hs hy, hz2⟩
        | err e => rw [hs] at h; exact ⟨x, .refl x, .inl ⟨e, .inr hs, h.symm⟩⟩
        | panic p => rw [hs] at h; exact ⟨x, .refl x, .inr ⟨p, .inr hs, h.symm⟩⟩
        | oof => rw [hs] at h; exact absurd h.symm hoof
    | err e => rw [hk] at h; exact ⟨x, .refl x, .inl ⟨e, .inl hk, h.symm⟩⟩
    | panic p => rw [hk] at h; exact ⟨x, .refl x, .inr ⟨p, .inl hk, h.symm⟩⟩
    | oof => rw [hk] at h; exact absurd h.symm hoof

theorem foldOut_fails {f : α → β → Out α} {a : α} {l : List β} {o : Out α} (h : foldOut f a l = o)
    (hok : ∀ d, o ≠ .ok d) : ∃ d, ∃ y ∈ l, f d y = o := by
  induction l generalizing a with
  | nil => exact absurd h.symm (hok _)
  | cons y l ih =>
    unfold foldOut at h
    cases hy : f a y with
    | ok d' =>
      rw [hy] at h
      obtain ⟨d, z, hz, hz2⟩ := ih h
      exact ⟨d, z, by simp [hz], hz2⟩
    | err e => rw [hy] at h; exact ⟨a, y, by simp, hy.trans h⟩
    | panic p => rw [hy] at h; exact ⟨a, y, by simp, hy.trans h⟩
    | oof => rw [hy] at h; exact ⟨a, y, by simp, hy.trans h⟩

end

end Sqlf

import Verif.Proofs.GoEq
import Verif.Proofs.Digits
import Verif.Spec.History
/-!
# Invariants of the argument stores
-/

namespace Sqlf

open Spec

/-- What a Dollar store that was filled by commits satisfies. -/
structure Store.Inv (s : Store) : Prop where
  /-- every dictionary entry points to its value -/
  entry : ∀ p ∈ s.dict, ∃ k, p.2 = k + 1 ∧ s.args[k]? = some p.1
  /-- every argument has an entry -/
  cover : s.isDollar = true → ∀ k v, s.args[k]? = some v → (v, k + 1) ∈ s.dict
  /-- no two entries are equal in Go -/
  distinct : s.dict.Pairwise fun p q => p.1.goEq q.1 = false

theorem Store.new_inv (style : Style) : (Store.new style).Inv :=
  ⟨by simp [Store.new], by simp [Store.new], by simp [Store.new]⟩

theorem goEq_comm (a b : Val) : a.goEq b = b.goEq a := by
  cases h : a.goEq b
  · cases h' : b.goEq a
    · rfl
    · rw [Val.goEq_symm _ _ h'] at h; exact h.symm
  · exact (Val.goEq_symm _ _ h).symm

theorem dictLookup_some {d : List (Val × Nat)} {v : Val} {i : Nat} (h : dictLookup d v = some i) :
    ∃ w, (w, i) ∈ d ∧ w.goEq v = true := by
  simp only [dictLookup, Option.map_eq_some_iff] at h
  obtain ⟨p, hp, rfl⟩ := h
  have h1 := List.find?_some hp
  have h2 := List.mem_of_find?_eq_some hp
  exact ⟨p.1, h2, h1⟩

theorem dictLookup_none {d : List (Val × Nat)} {v : Val} (h : dictLookup d v = none) :
    ∀ p ∈ d, p.1.goEq v = false := by
  simp only [dictLookup, Option.map_eq_none_iff, List.find?_eq_none] at h
  intro p hp
  simpa using h p hp

/-- What one commit does. -/
inductive Committed (s : Store) (v : Val) : Str → Store → Prop where
  | question (h : s.isDollar = false) :
      Committed s v (lit "?") { s with args := s.args ++ [v] }
  | reuse (h : s.isDollar = true) (w : Val) (k : Nat) (hw : s.args[k]? = some w)
      (he : w.goEq v = true) : Committed s v (dollarMark (k + 1)) s
  | add (h : s.isDollar = true) (hnew : ∀ w ∈ s.args, w.goEq v = false) :
      Committed s v (dollarMark (s.args.length + 1))
        { s with dict := (v, s.args.length + 1) :: s.dict, args := s.args ++ [v] }

theorem Store.commit_cases {s : Store} (hi : s.Inv) {v : Val} {p : Str} {s' : Store}
    (h : s.commit v = some (p, s')) : Committed s v p s' ∧ s'.Inv := by
  unfold Store.commit at h
  split at h
  · rename_i hd
    split at h
    · simp at h
    · split at h
      · rename_i i hl
        simp at h; obtain ⟨rfl, rfl⟩ := h
        obtain ⟨w, hm, he⟩ := dictLookup_some hl
        obtain ⟨k, hk, hw⟩ := hi.entry _ hm
        dsimp only at hk; subst hk
        exact ⟨.reuse hd w k hw he, hi⟩
      · rename_i hl
        simp at h; obtain ⟨rfl, rfl⟩ := h
        have hn := dictLookup_none hl
        refine ⟨.add hd ?_, ?_⟩
        · intro w hw
          obtain ⟨k, hk, rfl⟩ := List.getElem_of_mem hw
          exact hn _ (hi.cover hd k _ (List.getElem?_eq_getElem hk))
        · constructor
          · intro q hq
            simp at hq
            rcases hq with rfl | hq
            · exact ⟨s.args.length, rfl, by simp⟩
            · obtain ⟨k, hk, hw⟩ := hi.entry q hq
              refine ⟨k, hk, ?_⟩
              have : k < s.args.length := (List.getElem?_eq_some_iff.mp hw).1
              simp [List.getElem?_append, this]
              exact (List.getElem?_eq_some_iff.mp hw).2
          · intro _ k w hw
            simp only [List.getElem?_append] at hw
            split at hw
            · exact List.mem_cons_of_mem _ (hi.cover hd k w hw)
            · rename_i hk
              have : k = s.args.length := by
                by_cases hk' : k - s.args.length = 0
                · omega
                · obtain ⟨m, hm⟩ : ∃ m, k - s.args.length = m + 1 := ⟨k - s.args.length - 1, by omega⟩
                  rw [hm] at hw; simp at hw
              subst this
              simp at hw; subst hw
              simp
          · simp only [List.pairwise_cons]
            refine ⟨fun q hq => ?_, hi.distinct⟩
            rw [goEq_comm]; exact hn q hq
  · rename_i hd
    simp at h; obtain ⟨rfl, rfl⟩ := h
    refine ⟨.question (by simpa using hd), ⟨?_, ?_, hi.distinct⟩⟩
    · intro q hq
      obtain ⟨k, hk, hw⟩ := hi.entry q hq
      refine ⟨k, hk, ?_⟩
      have : k < s.args.length := (List.getElem?_eq_some_iff.mp hw).1
      simp [List.getElem?_append, this]
      exact (List.getElem?_eq_some_iff.mp hw).2
    · intro h'; exact absurd h' hd

theorem Committed.prefix {s s' : Store} {v : Val} {p : Str} (h : Committed s v p s') :
    s.args <+: s'.args := by
  cases h <;> simp

theorem Committed.isDollar {s s' : Store} {v : Val} {p : Str} (h : Committed s v p s') :
    s'.isDollar = s.isDollar := by
  cases h <;> rfl

/-- Without the invariant: a commit only appends. -/
theorem Store.commit_prefix {s s' : Store} {v : Val} {p : Str} (h : s.commit v = some (p, s')) :
    s.args <+: s'.args ∧ s'.isDollar = s.isDollar := by
  unfold Store.commit at h
  split at h
  · split at h
    · simp at h
    · split at h
      · simp at h; obtain ⟨_, rfl⟩ := h; simp
      · simp at h; obtain ⟨_, rfl⟩ := h; simp
  · simp at h; obtain ⟨_, rfl⟩ := h; simp

theorem commitAll_prefix {s s' : Store} {vs : List Val} {ps : List Str}
    (h : commitAll s vs = some (ps, s')) : s.args <+: s'.args ∧ s'.isDollar = s.isDollar := by
  induction vs generalizing s ps with
  | nil => simp [commitAll] at h; obtain ⟨_, rfl⟩ := h; simp
  | cons v vs ih =>
    simp only [commitAll] at h
    split at h
    · simp at h
    · rename_i p s1 h1
      split at h
      · simp at h
      · rename_i ps1 s2 h2
        simp at h; obtain ⟨rfl, rfl⟩ := h
        have a := Store.commit_prefix h1
        have b := ih h2
        exact ⟨a.1.trans b.1, by rw [b.2, a.2]⟩

theorem commitAll_inv {s s' : Store} (hi : s.Inv) {vs : List Val} {ps : List Str}
    (h : commitAll s vs = some (ps, s')) : s'.Inv := by
  induction vs generalizing s ps with
  | nil => simp [commitAll] at h; obtain ⟨_, rfl⟩ := h; exact hi
  | cons v vs ih =>
    simp only [commitAll] at h
    split at h
    · simp at h
    · rename_i p s1 h1
      split at h
      · simp at h
      · rename_i ps1 s2 h2
        simp at h; obtain ⟨rfl, rfl⟩ := h
        exact ih (Store.commit_cases hi h1).2 h2

theorem commitAll_length {s s' : Store} {vs : List Val} {ps : List Str}
    (h : commitAll s vs = some (ps, s')) : ps.length = vs.length := by
  induction vs generalizing s ps with
  | nil => simp [commitAll] at h; simp [← h.1]
  | cons v vs ih =>
    simp only [commitAll] at h
    split at h
    · simp at h
    · split at h
      · simp at h
      · rename_i ps1 s2 h2
        simp at h; obtain ⟨rfl, rfl⟩ := h
        simp [ih h2]

theorem pairwise_ne_symm {R : α → α → Prop} (hs : ∀ a b, R a b → R b a) {l : List α}
    (h : l.Pairwise R) : ∀ a b, a ∈ l → b ∈ l → a ≠ b → R a b := by
  induction h with
  | nil => simp
  | cons h1 _ ih =>
    intro a b ha hb hab
    rcases List.mem_cons.mp ha with rfl | ha'
    · rcases List.mem_cons.mp hb with rfl | hb'
      · exact absurd rfl hab
      · exact h1 _ hb'
    · rcases List.mem_cons.mp hb with rfl | hb'
      · exact hs _ _ (h1 _ ha')
      · exact ih a b ha' hb' hab

theorem Store.args_distinct {s : Store} (hi : s.Inv) (hd : s.isDollar = true) :
    ∀ (i j : Nat) (v w : Val), i ≠ j → s.args[i]? = some v → s.args[j]? = some w → v.goEq w = false := by
  intro i j v w hij hv hw
  have h1 := hi.cover hd i v hv
  have h2 := hi.cover hd j w hw
  have hp := hi.distinct
  have hsym := @pairwise_ne_symm _ (fun p q : Val × Nat => p.1.goEq q.1 = false)
    (fun a b h => by rw [goEq_comm]; exact h) _ hp
  exact hsym _ _ h1 h2 (by intro h; apply hij; simpa using congrArg Prod.snd h)

end Sqlf

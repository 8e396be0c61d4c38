import Verif.Spec.History
import Verif.Proofs.Store
import Verif.Proofs.Digits
/-!
# What a history of commits leaves
-/

namespace Sqlf

open Spec

theorem committed_mark {s s' : Store} {v : Val} {p : Str} (hd : s.isDollar = true)
    (h : Committed s v p s') :
    ∃ (k : Nat) (w : Val), p = dollarMark (k + 1) ∧ s'.args[k]? = some w ∧
      (w = v ∨ w.goEq v = true) := by
  cases h with
  | question h => rw [hd] at h; simp at h
  | reuse _ w k hw he => exact ⟨k, w, rfl, hw, .inr he⟩
  | add _ _ => exact ⟨s.args.length, v, rfl, by simp, .inl rfl⟩

theorem getElem?_prefix {l l' : List α} (h : l <+: l') {k : Nat} {a : α}
    (hk : l[k]? = some a) : l'[k]? = some a := by
  obtain ⟨t, rfl⟩ := h
  obtain ⟨hlt, rfl⟩ := List.getElem?_eq_some_iff.mp hk
  simp [List.getElem?_append, hlt]

theorem commitAll_resolve {s s' : Store} (hi : s.Inv) (hd : s.isDollar = true)
    {vs : List Val} {ps : List Str} (h : commitAll s vs = some (ps, s')) :
    ∀ (i : Nat) (v : Val), vs[i]? = some v →
      ∃ (k : Nat) (w : Val), ps[i]? = some (dollarMark (k + 1)) ∧ s'.args[k]? = some w ∧
        (w = v ∨ w.goEq v = true) := by
  induction vs generalizing s ps with
  | nil => simp
  | cons v vs ih =>
    simp only [commitAll] at h
    split at h
    · simp at h
    · rename_i p s1 h1
      split at h
      · simp at h
      · rename_i ps1 s2 h2
        simp at h; obtain ⟨rfl, rfl⟩ := h
        have hc := Store.commit_cases hi h1
        intro i u hu
        cases i with
        | zero =>
          simp at hu; subst hu
          obtain ⟨k, w, hp, hw, he⟩ := committed_mark hd hc.1
          exact ⟨k, w, by simp [hp], getElem?_prefix (commitAll_prefix h2).1 hw, he⟩
        | succ i =>
          simpa using ih hc.2 (by rw [hc.1.isDollar, hd]) h2 i u (by simpa using hu)

theorem dollarMark_inj {m n : Nat} : dollarMark m = dollarMark n ↔ m = n := by
  constructor
  · intro h; exact natDigits_inj (List.append_cancel_left h)
  · rintro rfl; rfl

theorem commitAll_same {s s' : Store} (hi : s.Inv) (hd : s.isDollar = true)
    {vs : List Val} {ps : List Str} (h : commitAll s vs = some (ps, s'))
    {k : Nat} {w : Val} (hk : s.args[k]? = some w) :
    ∀ (j : Nat) (v : Val), vs[j]? = some v →
      (ps[j]? = some (dollarMark (k + 1)) ↔ w.goEq v = true) := by
  induction vs generalizing s ps with
  | nil => simp
  | cons v vs ih =>
    simp only [commitAll] at h
    split at h
    · simp at h
    · rename_i p s1 h1
      split at h
      · simp at h
      · rename_i ps1 s2 h2
        simp at h; obtain ⟨rfl, rfl⟩ := h
        obtain ⟨hc, hi1⟩ := Store.commit_cases hi h1
        intro j u hu
        cases j with
        | zero =>
          simp at hu; subst hu
          simp only [List.getElem?_cons_zero, Option.some.injEq]
          cases hc with
          | question h => rw [hd] at h; simp at h
          | reuse _ w' k' hw' he' =>
            rw [dollarMark_inj]
            constructor
            · intro hkk
              obtain rfl : k' = k := by omega
              rw [hk] at hw'; simp at hw'; subst hw'; exact he'
            · intro hwv
              by_cases hkk : k' = k
              · omega
              · have := Store.args_distinct hi hd k' k w' w hkk hw' hk
                rw [Val.goEq_trans _ _ _ he' (Val.goEq_symm _ _ hwv)] at this
                simp at this
          | add _ hnew =>
            rw [dollarMark_inj]
            obtain ⟨hlt, rfl⟩ := List.getElem?_eq_some_iff.mp hk
            rw [hnew _ (List.getElem_mem hlt)]
            simp; omega
        | succ j =>
          simpa using ih hi1 (by rw [hc.isDollar, hd]) h2
            (getElem?_prefix hc.prefix hk) j u (by simpa using hu)

theorem commitAll_merge {s s' : Store} (hi : s.Inv) (hd : s.isDollar = true)
    {vs : List Val} {ps : List Str} (h : commitAll s vs = some (ps, s')) :
    ∀ (i j : Nat) (v w : Val), i < j → vs[i]? = some v → vs[j]? = some w →
      (ps[i]? = ps[j]? ↔ v.goEq w = true) := by
  induction vs generalizing s ps with
  | nil => simp
  | cons v vs ih =>
    simp only [commitAll] at h
    split at h
    · simp at h
    · rename_i p s1 h1
      split at h
      · simp at h
      · rename_i ps1 s2 h2
        simp at h; obtain ⟨rfl, rfl⟩ := h
        obtain ⟨hc, hi1⟩ := Store.commit_cases hi h1
        have hd1 : s1.isDollar = true := by rw [hc.isDollar, hd]
        intro i j u w hij hu hw
        obtain ⟨j, rfl⟩ : ∃ m, j = m + 1 := ⟨j - 1, by omega⟩
        cases i with
        | zero =>
          simp at hu; subst hu
          obtain ⟨k, x, hp, hx, he⟩ := committed_mark hd hc
          have := commitAll_same hi1 hd1 h2 hx j w (by simpa using hw)
          simp only [List.getElem?_cons_zero, List.getElem?_cons_succ, hp]
          rw [eq_comm, this]
          rcases he with rfl | he
          · rfl
          · constructor
            · intro h; exact Val.goEq_trans _ _ _ (Val.goEq_symm _ _ he) h
            · intro h; exact Val.goEq_trans _ _ _ he h
        | succ i =>
          simpa using ih hi1 hd1 h2 i j u w (by omega) (by simpa using hu) (by simpa using hw)


/-- Committing a history a second time to the Dollar store gives the same placeholders and
changes nothing. -/
theorem recommit {s1 : Store} (hi1 : s1.Inv) (hd1 : s1.isDollar = true) {vs : List Val}
    {ps : List Str} (hlen : ps.length = vs.length) (hh : ∀ v ∈ vs, v.hashable = true)
    (hr : ∀ (i : Nat) (v : Val), vs[i]? = some v →
      ∃ (k : Nat) (w : Val), ps[i]? = some (dollarMark (k + 1)) ∧ s1.args[k]? = some w ∧
        w.goEq v = true) : commitAll s1 vs = some (ps, s1) := by
  induction vs generalizing ps with
  | nil =>
    cases ps with
    | nil => rfl
    | cons p ps => simp at hlen
  | cons v vs ih =>
    cases ps with
    | nil => simp at hlen
    | cons p ps =>
      obtain ⟨k, w, hp, hk, he⟩ := hr 0 v rfl
      simp at hp
      have hc : ∃ q s2, s1.commit v = some (q, s2) := by
        unfold Store.commit
        rw [hd1, hh v (by simp)]
        simp only [Bool.not_true, Bool.false_eq_true, if_false, if_true]
        split <;> exact ⟨_, _, rfl⟩
      obtain ⟨q, s2, hc⟩ := hc
      have hs2 : s2 = s1 := by
        cases (Store.commit_cases hi1 hc).1 with
        | question h => rw [hd1] at h; cases h
        | reuse _ _ _ _ _ => rfl
        | add _ hnew => rw [hnew w (List.mem_of_getElem? hk)] at he; cases he
      subst hs2
      have hq : q = dollarMark (k + 1) := by
        have h1 : commitAll s2 [v] = some ([q], s2) := by simp [commitAll, hc]
        have := (commitAll_same hi1 hd1 h1 hk 0 v rfl).2 he
        simpa using this
      have htail := ih (ps := ps) (by simpa using hlen) (fun u hu => hh u (by simp [hu]))
        (fun i u hu => by simpa using hr (i + 1) u (by simpa using hu))
      simp only [commitAll, hc, htail, hq, hp]

/-- Everything committed in Dollar style is hashable. -/
theorem commitAll_hashable {s s' : Store} (hd : s.isDollar = true) {vs : List Val} {ps : List Str}
    (h : commitAll s vs = some (ps, s')) : ∀ v ∈ vs, v.hashable = true := by
  induction vs generalizing s s' ps with
  | nil => simp
  | cons v vs ih =>
    simp only [commitAll] at h
    split at h
    · simp at h
    · rename_i p s1 h1
      split at h
      · simp at h
      · rename_i ps1 s2 h2
        have hd1 := (Store.commit_prefix h1).2
        intro u hu
        rcases List.mem_cons.1 hu with rfl | hu
        · unfold Store.commit at h1
          rw [hd] at h1
          cases hh : u.hashable
          · simp [hh] at h1
          · rfl
        · exact ih (by rw [hd1, hd]) h2 u hu

theorem commitAll_question (vs : List Val) (s : Store) (hs : s.isDollar = false) :
    commitAll s vs = some (List.replicate vs.length (lit "?"), { s with args := s.args ++ vs }) := by
  induction vs generalizing s with
  | nil => simp [commitAll]
  | cons v vs ih =>
    have hc : s.commit v = some (lit "?", { s with args := s.args ++ [v] }) := by
      simp [Store.commit, hs]
    simp only [commitAll, hc]
    rw [ih { s with args := s.args ++ [v] } hs]
    simp [List.replicate_succ]

theorem commitAll_append (s : Store) (vs ws : List Val) :
    commitAll s (vs ++ ws) =
      (commitAll s vs).bind fun r => (commitAll r.2 ws).map fun q => (r.1 ++ q.1, q.2) := by
  induction vs generalizing s with
  | nil =>
    simp only [List.nil_append, commitAll, Option.bind_some]
    cases commitAll s ws <;> rfl
  | cons v vs ih =>
    simp only [List.cons_append, commitAll]
    cases s.commit v with
    | none => rfl
    | some r =>
      simp only [ih]
      cases commitAll r.2 vs with
      | none => rfl
      | some q =>
        simp only [Option.bind_some]
        cases commitAll q.2 ws <;> rfl

/-- Every argument added by a history of commits has a placeholder. -/
theorem commitAll_covers {s s' : Store} (hd : s.isDollar = true) (hi : s.Inv)
    {vs : List Val} {ps : List Str} (h : commitAll s vs = some (ps, s')) (n : Nat)
    (h1 : s.args.length < n) (h2 : n ≤ s'.args.length) :
    ∃ k : Nat, ps[k]? = some (dollarMark n) := by
  induction vs generalizing s ps with
  | nil => simp [commitAll] at h; obtain ⟨_, rfl⟩ := h; omega
  | cons v vs ih =>
    simp only [commitAll] at h
    split at h
    · simp at h
    · rename_i p s1 hc
      split at h
      · simp at h
      · rename_i ps1 s2 h4
        simp at h; obtain ⟨rfl, rfl⟩ := h
        obtain ⟨hcc, hi1⟩ := Store.commit_cases hi hc
        have hd1 : s1.isDollar = true := by rw [hcc.isDollar, hd]
        by_cases hn : s1.args.length < n
        · obtain ⟨k, hk⟩ := ih hd1 hi1 h4 hn
          exact ⟨k + 1, by simpa using hk⟩
        · cases hcc with
          | question h => rw [hd] at h; simp at h
          | reuse _ w k hw he => exact absurd h1 hn
          | add _ _ =>
            simp at hn
            obtain rfl : n = s.args.length + 1 := by omega
            exact ⟨0, rfl⟩

end Sqlf

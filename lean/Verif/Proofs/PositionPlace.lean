import Verif.Proofs.PositionErase
import Verif.Spec.Position
/-!
# Lines and columns
-/

namespace Sqlf

open Spec

private theorem ite_err {c : Prop} [Decidable c] {x : Rune} {k w : Nat}
    (h : (if c then (x, w) else (runeError, 1)).2 ≤ k) (hk : k < w) :
    (runeError, 1) = if c then (x, w) else (runeError, 1) := by
  by_cases hc : c
  · rw [if_pos hc] at h; exact absurd h (by dsimp only; omega)
  · rw [if_neg hc]

/-- The bytes after the first character do not matter for it. -/
theorem decodeRune_take (s : Str) (k : Nat) (h : (decodeRune s).2 ≤ k) :
    decodeRune (s.take k) = decodeRune s := by
  cases s with
  | nil => simp
  | cons b t =>
    by_cases h1 : b < 0x80
    · rw [decodeRune_ascii t h1] at h ⊢
      cases k with
      | zero => simp at h
      | succ k => rw [List.take_succ_cons, decodeRune_ascii _ h1]
    · by_cases h2 : b < 0xC2
      · have : ∀ t, decodeRune (b :: t) = (runeError, 1) := by
          intro t; simp only [decodeRune]; rw [if_neg h1, if_pos h2]
        rw [this] at h ⊢
        cases k with
        | zero => simp at h
        | succ k => rw [List.take_succ_cons, this]
      · by_cases h3 : b < 0xE0
        · match k, t with
          | 0, t => have := decodeRune_width_pos b t; omega
          | k + 1, [] => simp
          | k + 2, c :: t => simp [decodeRune, h1, h2, h3]
          | 1, c :: t =>
            simp only [List.take_succ_cons, List.take_zero, decodeRune] at h ⊢
            rw [if_neg h1, if_neg h2, if_pos h3] at h
            rw [if_neg h1, if_neg h2, if_pos h3, if_neg h1, if_neg h2, if_pos h3]
            exact ite_err h (by omega)
        · by_cases h4 : b < 0xF0
          · match k, t with
            | 0, t => have := decodeRune_width_pos b t; omega
            | k + 1, [] => simp
            | k + 2, [c] => simp
            | 1, [c] => simp [decodeRune, h1, h2, h3, h4]
            | k + 3, c :: d :: t => simp [decodeRune, h1, h2, h3, h4]
            | 1, c :: d :: t =>
              simp only [List.take_succ_cons, List.take_zero, decodeRune] at h ⊢
              rw [if_neg h1, if_neg h2, if_neg h3, if_pos h4] at h
              rw [if_neg h1, if_neg h2, if_neg h3, if_pos h4, if_neg h1, if_neg h2, if_neg h3, if_pos h4]
              exact ite_err h (by omega)
            | 2, c :: d :: t =>
              simp only [List.take_succ_cons, List.take_zero, decodeRune] at h ⊢
              rw [if_neg h1, if_neg h2, if_neg h3, if_pos h4] at h
              rw [if_neg h1, if_neg h2, if_neg h3, if_pos h4, if_neg h1, if_neg h2, if_neg h3, if_pos h4]
              exact ite_err h (by omega)
          · by_cases h5 : b < 0xF5
            · match k, t with
              | 0, t => have := decodeRune_width_pos b t; omega
              | k + 1, [] => simp
              | k + 2, [c] => simp
              | k + 3, [c, d] => simp
              | 1, [c] => simp [decodeRune, h1, h2, h3, h4]
              | 1, [c, d] => simp [decodeRune, h1, h2, h3, h4]
              | 2, [c, d] => simp [decodeRune, h1, h2, h3, h4]
              | k + 4, c :: d :: e :: t => simp [decodeRune, h1, h2, h3, h4, h5]
              | 1, c :: d :: e :: t =>
                simp only [List.take_succ_cons, List.take_zero, decodeRune] at h ⊢
                rw [if_neg h1, if_neg h2, if_neg h3, if_neg h4, if_pos h5] at h
                rw [if_neg h1, if_neg h2, if_neg h3, if_neg h4, if_pos h5, if_neg h1, if_neg h2, if_neg h3, if_neg h4,
                  if_pos h5]
                exact ite_err h (by omega)
              | 2, c :: d :: e :: t =>
                simp only [List.take_succ_cons, List.take_zero, decodeRune] at h ⊢
                rw [if_neg h1, if_neg h2, if_neg h3, if_neg h4, if_pos h5] at h
                rw [if_neg h1, if_neg h2, if_neg h3, if_neg h4, if_pos h5, if_neg h1, if_neg h2, if_neg h3, if_neg h4,
                  if_pos h5]
                exact ite_err h (by omega)
              | 3, c :: d :: e :: t =>
                simp only [List.take_succ_cons, List.take_zero, decodeRune] at h ⊢
                rw [if_neg h1, if_neg h2, if_neg h3, if_neg h4, if_pos h5] at h
                rw [if_neg h1, if_neg h2, if_neg h3, if_neg h4, if_pos h5, if_neg h1, if_neg h2, if_neg h3, if_neg h4,
                  if_pos h5]
                exact ite_err h (by omega)
            · have : ∀ t, decodeRune (b :: t) = (runeError, 1) := by
                intro t; simp only [decodeRune]; rw [if_neg h1, if_neg h2, if_neg h3, if_neg h4, if_neg h5]
              rw [this] at h ⊢
              cases k with
              | zero => simp at h
              | succ k => rw [List.take_succ_cons, this]

/-- `p`, followed by `r`, is `n` characters. -/
inductive Cut (r : Str) : Str → Nat → Prop where
  | nil : Cut r [] 0
  | cons {a p n} : a ≠ [] → (decodeRune (a ++ (p ++ r))).2 = a.length → Cut r p n → Cut r (a ++ p) (n + 1)

theorem Cut.charsAux {r p : Str} {n : Nat} (h : Cut r p n) (m : Nat) (hm : p.length ≤ m) :
    charsAux m p = n := by
  induction h generalizing m with
  | nil => cases m <;> rfl
  | @cons a p n ha hd _ ih =>
    have hl : 1 ≤ a.length := by
      cases a with
      | nil => exact absurd rfl ha
      | cons => simp
    cases m with
    | zero => rw [List.length_append] at hm; omega
    | succ m =>
      have hne : a ++ p ≠ [] := by simp [ha]
      have hw : (decodeRune (a ++ p)).2 = a.length := by
        have := decodeRune_take (a ++ (p ++ r)) (a ++ p).length (by rw [hd]; simp)
        rw [← List.append_assoc, List.take_left] at this
        rw [this, List.append_assoc, hd]
      unfold Spec.charsAux
      rw [if_neg hne, hw, List.drop_left, ih m (by simp at hm; omega)]

theorem Cut.chars {r p : Str} {n : Nat} (h : Cut r p n) : chars p = n := h.charsAux _ (Nat.le_refl _)

theorem Cut.snoc {a r p : Str} {n : Nat} (h : Cut (a ++ r) p n) (ha : a ≠ [])
    (hd : (decodeRune (a ++ r)).2 = a.length) : Cut r (p ++ a) (n + 1) := by
  induction h with
  | nil => simpa using Cut.cons (p := []) ha (by simpa using hd) .nil
  | @cons b p n hb hbd _ ih =>
    rw [List.append_assoc]
    refine .cons hb ?_ ih
    rw [List.append_assoc, hbd]

theorem lastLine_append {p a : Str} (h : ∀ c ∈ a, c ≠ 0x0A) : lastLine (p ++ a) = lastLine p ++ a := by
  unfold lastLine
  rw [List.reverse_append, List.takeWhile_append_of_pos]
  · simp
  · intro c hc
    have := h c (by simpa using hc)
    simpa using this

theorem lastLine_newline {p : Str} : lastLine (p ++ [0x0A]) = [] := by
  simp [lastLine]

theorem count_append_none {p a : Str} (h : ∀ c ∈ a, c ≠ 0x0A) : (p ++ a).count 0x0A = p.count 0x0A := by
  rw [List.count_append, List.count_eq_zero_of_not_mem (fun hm => h _ hm rfl), Nat.add_zero]

/-- The first character: a newline, one byte, or bytes none of which is a newline. -/
theorem first_rune (b : UInt8) (t : Str) :
    (b = 0x0A ∧ decodeRune (b :: t) = (0x0A, 1)) ∨
    (b ≠ 0x0A ∧ (decodeRune (b :: t)).1 ≠ 0x0A ∧ ∀ c ∈ (b :: t).take (decodeRune (b :: t)).2, c ≠ 0x0A) := by
  by_cases hb : b = 0x0A
  · left; subst hb; exact ⟨rfl, rfl⟩
  · right
    refine ⟨hb, ?_⟩
    by_cases h : b < 0x80
    · rw [decodeRune_ascii t h]
      refine ⟨?_, by simpa using hb⟩
      intro hn
      exact hb (UInt8.toNat_inj.mp hn)
    · obtain ⟨h1, _, _, h4⟩ := decodeRune_hi t h
      refine ⟨by intro he; rw [he] at h1; exact absurd h1 (by decide), ?_⟩
      intro c hc he
      have := h4 c hc
      rw [he] at this
      exact this (by decide)

/-- What `Next` keeps true of the position. -/
structure Placed (g : GLex) : Prop where
  wf : g.WF
  place : g.current.place = placeAt g.input g.current.offset
  cut : ∃ n, Cut (g.input.drop g.current.offset) (lastLine (g.input.take g.current.offset)) n

theorem rune_newline (s : Str) (o : Nat) : (decodeRune (s.drop o)).1 = 0x0A ↔ s[o]? = some 0x0A := by
  by_cases h : o < s.length
  · rw [drop_cons_of_lt h, List.getElem?_eq_getElem h]
    rcases first_rune s[o] (s.drop (o + 1)) with ⟨h1, h2⟩ | ⟨h1, h2, _⟩
    · simp [h1, decodeRune]
    · exact ⟨fun hh => absurd hh h2, fun hh => absurd (Option.some.inj hh) h1⟩
  · rw [List.drop_eq_nil_of_le (by omega), List.getElem?_eq_none (by omega)]
    simp [decodeRune, runeError]

theorem Placed.next {g : GLex} (h : Placed g) : Placed g.next := by
  by_cases hl : g.current.offset < g.input.length
  · have hwf := h.wf.next
    have hd : (g.rune, g.width) = decodeRune (g.input.drop g.current.offset) := by
      rcases h.wf.here with ⟨h1, _⟩ | ⟨_, h2⟩
      · omega
      · exact h2
    have hwl := h.wf.width_le
    obtain ⟨n, hc⟩ := h.cut
    have hp := h.place
    generalize hs : g.input = s at *
    generalize ho : g.current.offset = o at *
    generalize hw : g.width = w at *
    have hdw : (decodeRune (s.drop o)).2 = w := by rw [← hd]
    have htake : s.take (o + w) = s.take o ++ (s.drop o).take w := List.take_add
    have hget : s[o]? = some s[o] := List.getElem?_eq_getElem hl
    have hsplit : (s.drop o).take w ++ s.drop (o + w) = s.drop o := by
      rw [← List.drop_drop, List.take_append_drop]
    have hrn := rune_newline s (o + w)
    have key : (lastLine (s.take (o + w)) = [] ∧ g.current.place = ⟨(s.take (o + w)).count 0x0A + 1, 0⟩) ∨
        ((∃ m, Cut (s.drop (o + w)) (lastLine (s.take (o + w))) (m + 1) ∧
          g.current.place = ⟨(s.take (o + w)).count 0x0A + 1, m + 1⟩)) := by
      rw [drop_cons_of_lt hl] at hd hdw
      rcases first_rune s[o] (s.drop (o + 1)) with ⟨h1, h2⟩ | ⟨h1, h2, h3⟩
      · left
        have hw1 : w = 1 := by rw [h2] at hdw; exact hdw.symm
        have hn : (s.drop o).take w = [0x0A] := by
          rw [drop_cons_of_lt hl, hw1, h1]; rfl
        rw [htake, hn]
        refine ⟨lastLine_newline, ?_⟩
        rw [hp, placeAt, hget, h1, if_pos rfl]
        simp
      · right
        rw [hdw, ← drop_cons_of_lt hl] at h3
        refine ⟨n, ?_, ?_⟩
        · rw [htake, lastLine_append h3]
          refine Cut.snoc (by rw [hsplit]; exact hc) ?_ ?_
          · have := (decodeRune_width_pos s[o] (s.drop (o + 1))).1
            intro he
            have := congrArg List.length he
            rw [List.length_take, List.length_drop, List.length_nil] at this
            omega
          · rw [hsplit, drop_cons_of_lt hl, hdw, ← drop_cons_of_lt hl, List.length_take, List.length_drop]
            omega
        · rw [htake, count_append_none h3, hp, placeAt, hget, if_neg (by simpa using h1), hc.chars]
    have hnx := GLex.next_mid (g := g) (by rw [hs, ho]; exact hl)
    have hni : g.next.input = s := by rw [g.next_input, hs]
    rw [hs, ho, hw] at hnx
    have hno : g.next.current.offset = o + w := by rw [hnx]
    refine ⟨hwf, ?_, ?_⟩
    · rw [hni, hno, hnx]
      dsimp only
      rw [placeAt]
      by_cases hnl : s[o + w]? = some 0x0A
      · rw [if_pos (hrn.mpr hnl), if_pos hnl]
        rcases key with ⟨_, h2⟩ | ⟨m, _, h2⟩ <;> rw [h2]
      · rw [if_neg (fun hh => hnl (hrn.mp hh)), if_neg hnl]
        rcases key with ⟨h1, h2⟩ | ⟨m, h1, h2⟩
        · rw [h2, h1]; rfl
        · rw [h2, h1.chars]
    · rw [hni, hno]
      rcases key with ⟨h1, _⟩ | ⟨m, h1, _⟩
      · rw [h1]; exact ⟨0, .nil⟩
      · exact ⟨_, h1⟩
  · have hn := GLex.next_end (g := g) (by omega)
    refine ⟨h.wf.next, ?_, ?_⟩
    · rw [hn]; exact h.place
    · rw [hn]; exact h.cut

theorem Placed.startToken {g : GLex} (h : Placed g) : Placed g.startToken :=
  ⟨h.wf.startToken, h.place, h.cut⟩

theorem placed_init (b : UInt8) (t : Str) : Placed (GLex.init (b :: t)) := by
  refine ⟨GLex.init_wf _, ?_, ?_⟩
  · unfold GLex.init
    rw [GLex.next_mid (by simp)]
    have := rune_newline (b :: t) 0
    simp only [List.drop_zero] at this
    simp only [List.drop_zero, Nat.add_zero, placeAt, this]
    split <;> rfl
  · unfold GLex.init
    rw [GLex.next_mid (by simp)]
    exact ⟨0, .nil⟩

theorem Nexts.placed {g g' : GLex} (h : Nexts g g') (hp : Placed g) : Placed g' := by
  induction h with
  | refl => exact hp
  | step _ ih => exact ih hp.next

theorem Moves.placed {g g' : GLex} (h : Moves g g') (hp : Placed g) : Placed g' := by
  induction h with
  | refl => exact hp
  | next _ ih => exact ih hp.next
  | start _ ih => exact ih hp.startToken

end Sqlf

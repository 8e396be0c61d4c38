import Verif.Spec.Segments
import Verif.Proofs.Reader
/-!
# Cutting a template into pieces
-/

namespace Sqlf

open Spec

theorem trimLeftAux_suffix (n : Nat) (s : Str) : trimLeftAux n s <:+ s := by
  induction n generalizing s with
  | zero => exact List.suffix_refl _
  | succ n ih =>
    unfold trimLeftAux
    split
    · exact List.suffix_refl _
    · split
      · exact (ih _).trans (List.drop_suffix _ _)
      · exact List.suffix_refl _

theorem trimLeft_suffix (s : Str) : trimLeft s <:+ s := trimLeftAux_suffix _ _

theorem region_split {c : UInt8} {s x u : Str} (h : region c s = some (x, u)) : s = x ++ u := by
  fun_induction region c s generalizing x u with
  | case1 => simp at h
  | case2 => simp at h; simp [← h.1, ← h.2]
  | case3 => simp at h
  | case4 => simp at h
  | case5 t _ hc hz ih =>
    simp only [Option.map_eq_some_iff] at h
    obtain ⟨⟨x', u'⟩, hr, he⟩ := h
    simp at he
    rw [ih hr, ← he.1, ← he.2]; simp
  | case6 => simp at h; simp [← h.1, ← h.2]
  | case7 b b' t h1 h2 ih =>
    simp only [Option.map_eq_some_iff] at h
    obtain ⟨⟨x', u'⟩, hr, he⟩ := h
    simp at he
    rw [ih hr, ← he.1, ← he.2]; simp

theorem region_self {c : UInt8} {s x u : Str} (h : region c s = some (x, u)) : region c x = some (x, []) := by
  fun_induction region c s generalizing x u with
  | case1 => simp at h
  | case2 => simp at h; simp [← h.1, region]
  | case3 => simp at h
  | case4 => simp at h
  | case5 b' t hc hz ih =>
    simp only [Option.map_eq_some_iff] at h
    obtain ⟨⟨x', u'⟩, hr, he⟩ := h
    simp at he
    have := ih hr
    rw [← he.1]
    simp only [region]
    rw [if_neg hz, if_pos trivial, if_pos hc, this]; rfl
  | case6 => simp at h; simp [← h.1, region]
  | case7 b b' t h1 h2 ih =>
    simp only [Option.map_eq_some_iff] at h
    obtain ⟨⟨x', u'⟩, hr, he⟩ := h
    simp at he
    have := ih hr
    rw [← he.1]
    cases x' with
    | nil => simp [region] at this
    | cons y ys =>
      simp only [region]
      rw [if_neg h1, if_neg h2, this]; rfl

theorem readArg_suffix {L : GoLib} {s u : Str} {a : CallArg} (h : readArg L s = some (a, u)) : u <:+ s := by
  unfold readArg at h
  split at h
  · simp only [Option.map_eq_some_iff] at h
    obtain ⟨⟨x', u'⟩, hr, he⟩ := h
    simp at he
    rw [← he.2]
    exact List.IsSuffix.trans ⟨x', (region_split hr).symm⟩ (List.drop_suffix _ _)
  · dsimp only at h
    have hs := List.dropWhile_suffix (l := s) (fun b => b ≠ 0x2C && b ≠ 0x29 && b ≠ 0)
    repeat' split at h
    all_goals simp at h
    all_goals first
      | (rw [← h.2]; simpa using hs)
      | (obtain ⟨_, _, _, h⟩ := h; rw [← h]; simpa using hs)

theorem head_drop {s : Str} {b : UInt8} (h : s.head? = some b) : s = b :: s.drop 1 := by
  cases s <;> simp at h ⊢; exact h

theorem readArgs_split {L : GoLib} {n : Nat} {s u : Str} {args : List CallArg}
    (h : readArgs L n s = some (args, u)) : ∃ body, s = body ++ 0x29 :: u := by
  induction n generalizing s args with
  | zero => simp [readArgs] at h
  | succ n ih =>
    unfold readArgs at h
    obtain ⟨w, hw⟩ := trimLeft_suffix s
    split at h
    next h1 =>
      simp only [Option.some.injEq, Prod.mk.injEq] at h
      have := head_drop h1
      rw [h.2] at this
      exact ⟨w, by rw [← hw, this]⟩
    next h1 =>
      split at h
      · simp at h
      next a v hv =>
        obtain ⟨w2, hw2⟩ := readArg_suffix hv
        obtain ⟨w3, hw3⟩ := trimLeft_suffix v
        split at h
        next h2 =>
          simp only [Option.some.injEq, Prod.mk.injEq] at h
          have := head_drop h2
          rw [h.2] at this
          exact ⟨w ++ w2 ++ w3, by rw [← hw, ← hw2, ← hw3, this]; simp⟩
        next =>
          split at h
          next h2 =>
            simp only [Option.map_eq_some_iff] at h
            obtain ⟨⟨as', u'⟩, hr, he⟩ := h
            simp at he
            rw [he.2] at hr
            obtain ⟨body, hb⟩ := ih hr
            exact ⟨w ++ w2 ++ w3 ++ 0x2C :: body, by
              rw [← hw, ← hw2, ← hw3, head_drop h2, hb]; simp⟩
          next => simp at h

theorem Spec.Segment.mono {L : GoLib} {s : Str} {e : Expr} {a : Bool} (h : Segment L false s e) : Segment L a s e := by
  cases h with
  | byte h => exact .byte h
  | doubled h => exact .doubled h
  | quoted h h' => exact .quoted h h'
  | unclosed h h' => exact .unclosed h h'
  | sign h => simp at h
  | question => exact .question
  | dollar h h' h'' => exact .dollar h h' h''
  | func h => exact .func h
  | short h h' h'' h3 => exact .short h h' h'' h3
  | call h h' => exact .call h h'

theorem Spec.Segments.mono {L : GoLib} {ps : List (Str × Expr)} {a : Bool} (h : Segments L false ps) : Segments L a ps := by
  cases ps with
  | nil => trivial
  | cons p ps => exact ⟨h.1.mono, h.2⟩

theorem takeWhile_name {t : Str} (h : t.takeWhile nameByte ≠ []) : isName (t.takeWhile nameByte) :=
  ⟨h, takeWhile_all⟩

theorem starts_takeWhile {p q : UInt8 → Bool} (hpq : ∀ b, p b = true → q b = true) {t : Str}
    (h : startsWith p t = true) : startsWith p (t.takeWhile q) = true := by
  cases t with
  | nil => simp [startsWith] at h
  | cons b t =>
    simp only [startsWith] at h
    simp [List.takeWhile_cons, hpq b h, startsWith, h]

/-- A template without NUL is cut into pieces that stand for what is read. -/
theorem segments_of_read (L : GoLib) (n : Nat) (k : Nat) (q : Bool) (s : Str) (es : List Expr) (h0 : 0 ∉ s)
    (h : readFrom L n k q s = some es) :
    ∃ ps, source ps = s ∧ ps.map (·.2) = es ∧ Segments L false ps := by
  induction n generalizing k q s es with
  | zero => simp [readFrom] at h
  | succ n ih =>
    cases s with
    | nil => simp [readFrom] at h; subst h; exact ⟨[], rfl, rfl, trivial⟩
    | cons b t =>
      have hb : b ≠ 0 := fun h => h0 (by simp [h])
      have ht : (0 : UInt8) ∉ t := fun h => h0 (by simp [h])
      have suf : ∀ {u : Str}, u <:+ t → (0 : UInt8) ∉ u := fun hu hm => ht (hu.subset hm)
      have one : ∀ {src u : Str} {e : Expr} {k' q'}, b :: t = src ++ u → u <:+ t →
          Segment L false src e → Option.map (e :: ·) (readFrom L n k' q' u) = some es →
          ∃ ps, source ps = b :: t ∧ ps.map (·.2) = es ∧ Segments L false ps := by
        intro src u e k' q' hsrc hu hseg hm
        simp only [Option.map_eq_some_iff] at hm
        obtain ⟨es', hr, rfl⟩ := hm
        obtain ⟨ps, h1, h2, h3⟩ := ih k' q' u es' (suf hu) hr
        exact ⟨(src, e) :: ps, by rw [hsrc, ← h1]; rfl, by simp [h2], hseg, h3.mono⟩
      unfold readFrom at h
      rw [if_neg hb] at h
      split at h
      next hsign =>
        split at h
        next hd => exact one (by rw [head_drop hd]; rfl) (List.drop_suffix _ _) (.doubled hsign) h
        next hd =>
          split at h
          next hq =>
            split at h
            · simp at h
            · subst hq; exact one rfl (List.suffix_refl _) .question h
          next hq =>
            split at h
            · simp at h
            next hc =>
              have : b = 0x24 := by rcases hsign with h | h; exact h; exact absurd h hq
              subst this
              simp only [not_or, Bool.not_eq_false] at hc
              refine one (src := 0x24 :: t.takeWhile isDigitB) ?_ (List.dropWhile_suffix _) ?_ h
              · simp
              · refine .dollar (starts_takeWhile (fun _ => digit19_digit) hc.2.1) takeWhile_all ?_
                have := hc.2.2
                unfold intOfUint64
                split <;> omega
      next hsign =>
        split at h
        next hh =>
          subst hh
          dsimp only at h
          split at h
          · simp at h
          next hname =>
            have hn := takeWhile_name hname
            have hsplit := name_split t
            have hr := List.dropWhile_suffix (l := t) nameByte
            generalize hN : t.takeWhile nameByte = name at *
            generalize hR : t.dropWhile nameByte = r at *
            split at h
            next hd =>
              split at h
              · simp at h
              next x hx =>
                refine one (src := 0x23 :: (name ++ r.takeWhile isDigitB)) ?_
                  ((List.dropWhile_suffix _).trans hr) ?_ h
                · rw [← hsplit]; simp
                · exact .short hn (starts_takeWhile (fun _ h => h) hd) takeWhile_all hx
            next hd =>
              split at h
              next hp =>
                split at h
                · simp at h
                next args u hu =>
                  obtain ⟨body, hbody⟩ := readArgs_split hu
                  have hr2 : r = 0x28 :: (body ++ 0x29 :: u) := by rw [← hbody]; exact head_drop hp
                  refine one (src := 0x23 :: (name ++ 0x28 :: (body ++ [0x29]))) ?_
                    (List.IsSuffix.trans ⟨0x28 :: (body ++ [0x29]), by simp [hr2]⟩ hr) (.call hn (hbody ▸ hu)) h
                  rw [← hsplit, hr2]; simp
              next hp =>
                split at h
                · simp at h; subst h
                  exact ⟨[(0x23 :: name, .func name)], by rw [← hsplit]; simp [source], rfl, .func hn, trivial⟩
                next m u =>
                  have two : (m = 0x24 ∨ m = 0x3F ∨ m = 0x23) →
                      Option.map (fun es => .func name :: .plain [m] :: es) (readFrom L n k q u) = some es →
                      ∃ ps, source ps = 0x23 :: t ∧ ps.map (·.2) = es ∧ Segments L false ps := by
                    intro hm h
                    simp only [Option.map_eq_some_iff] at h
                    obtain ⟨es', hr', rfl⟩ := h
                    obtain ⟨ps, h1, h2, h3⟩ := ih k q u es' (suf ((List.suffix_cons _ _).trans hr)) hr'
                    exact ⟨(0x23 :: name, .func name) :: ([m], .plain [m]) :: ps,
                      by rw [← hsplit, ← h1]; simp [source], by simp [h2], .func hn, .sign rfl hm, h3.mono⟩
                  split at h
                  next hm =>
                    split at h
                    · simp at h
                    · exact two (by rcases hm.1 with h | h <;> simp [h]) h
                  next =>
                    split at h
                    next hm =>
                      split at h
                      · simp at h
                      · exact two (by simp [hm]) h
                    next =>
                      refine one (src := 0x23 :: name) ?_ hr (.func hn) h
                      rw [← hsplit]; rfl
        next hh =>
          split at h
          next hq =>
            split at h
            next x u hu =>
              refine one (src := b :: x) ?_ ⟨x, (region_split hu).symm⟩ (.quoted hq (region_self hu)) h
              rw [region_split hu]; rfl
            next hu =>
              have : t.takeWhile (· ≠ 0) = t := by
                clear h hu suf one h0
                induction t with
                | nil => rfl
                | cons y t ih =>
                  have hy : y ≠ 0 := fun h => ht (by simp [h])
                  simp only [List.takeWhile_cons, hy, ne_eq, not_false_eq_true, decide_true, if_true]
                  rw [ih (fun h => ht (by simp [h]))]
              rw [this] at h
              simp at h; subst h
              exact ⟨[(b :: t, .plain (b :: t))], by simp [source], rfl, .unclosed hq hu, trivial⟩
          next hq =>
            refine one (src := [b]) rfl (List.suffix_refl _) (.byte ?_) h
            simp [plainByte]
            simp at hsign hq
            exact ⟨⟨⟨⟨⟨⟨hsign.1, hsign.2⟩, hh⟩, hq.1⟩, hq.2.1⟩, hq.2.2⟩, hb⟩

/-- The bind variables of what is read are numbered in order. -/
theorem numbered_of_read (L : GoLib) (n : Nat) (k : Nat) (q : Bool) (s : Str) (es : List Expr)
    (h : readFrom L n k q s = some es) : Numbered k q es := by
  induction n generalizing k q s es with
  | zero => simp [readFrom] at h
  | succ n ih =>
    cases s with
    | nil => simp [readFrom] at h; subst h; trivial
    | cons b t =>
      unfold readFrom at h
      dsimp only at h
      repeat' split at h
      all_goals try (simp at h; done)
      all_goals try (simp at h; subst h; trivial)
      all_goals
        simp only [Option.map_eq_some_iff] at h
        obtain ⟨es', hr, rfl⟩ := h
        have := ih _ _ _ _ hr
      all_goals try exact this
      · exact ⟨rfl, this⟩
      · rename_i hc
        simp only [not_or] at hc
        have hq : q = false := by simpa using hc.1
        exact ⟨hq, by rw [hq]; exact this⟩

theorem Numbered.glue {k : Nat} {q : Bool} {es : List Expr} : Numbered k q (glue es) ↔ Numbered k q es := by
  induction es generalizing k q with
  | nil => rfl
  | cons e es ih =>
    cases e with
    | plain t =>
      simp only [Spec.glue]
      split
      · simpa [Numbered] using ih
      · show _ ↔ Numbered k q es
        rw [← ih]
        split
        next h => rw [h]; rfl
        next => rfl
    | bindVar st i => 
      simp only [Spec.glue, Numbered, ih]
    | call _ _ => exact ih
    | func _ => exact ih

end Sqlf

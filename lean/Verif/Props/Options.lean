import Verif.Model.Util
import Verif.Props.Interpolate
import Verif.Props.Position
import Verif.KernelRfl
/-!
# C100 and C101: options of Interpolate, and how positions are written
-/

namespace Sqlf.Props

open Sqlf Spec

/-! ## C100 -/

/-- **C100** The last time format given counts; without one it is RFC 3339. -/
theorem C100_last_format_counts (L : GoLib) (query : Str) (args : List Val) (options : List Str) (format : Str) :
    interpolateWith L query args (options ++ [format]) = interpolateWith L query args [format] ∧
    interpolateWith L query args [] = interpolateWith L query args [lit "2006-01-02T15:04:05Z07:00"] := by
  constructor
  · unfold interpolateWith applyInterpolateOptions
    rw [List.foldl_append]
    rfl
  · rfl

/-- Two texts that differ in how times are written and in nothing else. -/
inductive SameButTimes (L : GoLib) (f g : Str) : Str → Str → Prop where
  | nil : SameButTimes L f g [] []
  | text (t : Str) {a b : Str} : SameButTimes L f g a b → SameButTimes L f g (t ++ a) (t ++ b)
  | time (id : Nat) {a b : Str} : SameButTimes L f g a b →
      SameButTimes L f g (lit "'" ++ L.formatTime id f ++ lit "'" ++ a) (lit "'" ++ L.formatTime id g ++ lit "'" ++ b)

private theorem encode_formats (L : GoLib) (f g : Str) : ∀ v : Val,
    (∃ id, encodeValue L f v = .ok (lit "'" ++ L.formatTime id f ++ lit "'") ∧
      encodeValue L g v = .ok (lit "'" ++ L.formatTime id g ++ lit "'")) ∨ encodeValue L f v = encodeValue L g v
  | .valuer i h (some v) es => by simpa only [encodeValue] using encode_formats L f g v
  | .time id false => .inl ⟨id, rfl, rfl⟩
  | .time _ true => .inr rfl
  | .valuer _ _ none _ => .inr rfl
  | .nil => .inr rfl
  | .stringer _ _ _ _ => .inr rfl
  | .bool _ true => .inr rfl
  | .bool _ false => .inr rfl
  | .int _ _ => .inr rfl
  | .uint _ _ => .inr rfl
  | .float _ _ => .inr rfl
  | .str _ _ => .inr rfl
  | .slice _ _ => .inr rfl
  | .array _ _ => .inr rfl
  | .ptr _ _ => .inr rfl
  | .nilPtr _ _ => .inr rfl
  | .nilRecv _ => .inr rfl
  | .other _ _ => .inr rfl

/-- What holds of the outcomes with two formats. -/
private def SameOutcome (L : GoLib) (f g : Str) (a b : Out Str) : Prop :=
  (∃ s t, a = .ok s ∧ b = .ok t ∧ SameButTimes L f g s t) ∨ (a = b ∧ ∀ s, a ≠ .ok s)

private theorem exprs_formats (L : GoLib) (f g : Str) (args : List Val) : ∀ es : List Expr,
    SameOutcome L f g (interpolateExprs L f args es) (interpolateExprs L g args es) := by
  intro es
  induction es with
  | nil => exact .inl ⟨_, _, rfl, rfl, .nil⟩
  | cons e es ih =>
    cases e with
    | plain t =>
      simp only [interpolateExprs]
      rcases ih with ⟨s, u, h1, h2, h3⟩ | ⟨h1, h2⟩
      · rw [h1, h2]; exact .inl ⟨_, _, rfl, rfl, .text t h3⟩
      · rw [← h1]
        cases h : interpolateExprs L f args es with
        | ok s => exact absurd h (h2 s)
        | _ => exact .inr ⟨rfl, by simp⟩
    | bindVar st i =>
      simp only [interpolateExprs]
      by_cases hi : i < 1 ∨ args.length < i
      · rw [if_pos hi, if_pos hi]; exact .inr ⟨rfl, by simp⟩
      rw [if_neg hi, if_neg hi]
      cases hv : args[(i - 1).toNat]? with
      | none => exact .inr ⟨rfl, by simp⟩
      | some v =>
        dsimp only
        rcases encode_formats L f g v with ⟨id, e1, e2⟩ | he
        · rw [e1, e2]
          dsimp only
          rcases ih with ⟨s, u, h1, h2, h3⟩ | ⟨h1, h2⟩
          · rw [h1, h2]; exact .inl ⟨_, _, rfl, rfl, .time id h3⟩
          · rw [← h1]
            cases h : interpolateExprs L f args es with
            | ok s => exact absurd h (h2 s)
            | _ => exact .inr ⟨rfl, by simp⟩
        · rw [← he]
          cases encodeValue L f v with
          | err e => exact .inr ⟨rfl, by simp⟩
          | panic p => exact .inr ⟨rfl, by simp⟩
          | oof => exact .inr ⟨rfl, by simp⟩
          | ok x =>
            dsimp only
            rcases ih with ⟨s, u, h1, h2, h3⟩ | ⟨h1, h2⟩
            · rw [h1, h2]; exact .inl ⟨_, _, rfl, rfl, .text x h3⟩
            · rw [← h1]
              cases h : interpolateExprs L f args es with
              | ok s => exact absurd h (h2 s)
              | _ => exact .inr ⟨rfl, by simp⟩
    | call _ _ => exact .inr ⟨rfl, by simp [interpolateExprs]⟩
    | func _ => exact .inr ⟨rfl, by simp [interpolateExprs]⟩

/-- **C100** The format decides nothing but how times are written: with another one the same queries fail, in the
same way, and the texts of the others differ in the times only. -/
theorem C100_formats_change_times_only (L : GoLib) (query : Str) (args : List Val) (f g : Str) :
    (∃ s t, interpolateWith L query args [f] = .ok s ∧ interpolateWith L query args [g] = .ok t ∧ SameButTimes L f g s t) ∨
    (interpolateWith L query args [f] = interpolateWith L query args [g] ∧ ∀ s, interpolateWith L query args [f] ≠ .ok s) := by
  show SameOutcome L f g (interpolate L f query args) (interpolate L g query args)
  unfold interpolate
  cases parse L query with
  | error e => exact .inr ⟨rfl, by simp⟩
  | ok es => exact exprs_formats L f g args es

/-- The value is written without a time. -/
def NoTime : Val → Prop
  | .time _ isZero => isZero = true
  | .valuer _ _ (some v) _ => NoTime v
  | _ => True

private theorem encode_noTime (L : GoLib) (f g : Str) : ∀ v : Val, NoTime v → encodeValue L f v = encodeValue L g v := by
  intro v
  induction v using encodeValue.induct with
  | case3 i h v es ih => intro hn; simp only [encodeValue]; exact ih hn
  | case5 => intro hn; cases hn
  | _ => intros; simp only [encodeValue]

/-- **C100** Where no argument is a time the format is not used. -/
theorem C100_no_times (L : GoLib) (query : Str) (args : List Val) (options options' : List Str) (h : ∀ v ∈ args, NoTime v) :
    interpolateWith L query args options = interpolateWith L query args options' := by
  unfold interpolateWith interpolate
  cases parse L query with
  | error e => rfl
  | ok es =>
    dsimp only
    induction es with
    | nil => rfl
    | cons e es ih =>
      cases e with
      | plain t => simp only [interpolateExprs, ih]
      | bindVar st i =>
        simp only [interpolateExprs, ih]
        cases hv : args[(i - 1).toNat]? with
        | none => rfl
        | some v => dsimp only; rw [encode_noTime L _ (applyInterpolateOptions options') v (h v (List.mem_of_getElem? hv))]
      | call _ _ => rfl
      | func _ => rfl

/-- A query with a time and without. -/
example (L : GoLib) (f : Str) :
    interpolateWith L (lit "a=$1 AND b=$2") [.time 7 false, .int 0 3] [f] =
      .ok (lit "a=" ++ (lit "'" ++ L.formatTime 7 f ++ lit "'") ++ lit " AND b=3") ∧
    (∀ v ∈ [Val.int 0 3, .time 7 true], NoTime v) ∧
    interpolateWith L (lit "a=$1 AND b=$2") [.int 0 3, .time 7 true] [f] = .ok (lit "a=3 AND b='0000-00-00'") := by
  refine ⟨?_, by simp [NoTime], by kernel_rfl⟩
  show interpolate _ _ _ _ = _
  rw [interpolate, show parse L (lit "a=$1 AND b=$2") = .ok [.plain (lit "a="), .bindVar dollar 1, .plain (lit " AND b="), .bindVar dollar 2] by kernel_rfl]
  have : natDigits 3 = lit "3" := by decide
  simp [interpolateExprs, encodeValue, itoa, this, applyInterpolateOptions]
  rfl

/-! ## C101 -/

/-- **C101** Positions that are written alike are the same (but for those without a line, which no expression has). -/
theorem C101_position_texts_differ (p q : Place) (hp : 1 ≤ p.line) (hq : 1 ≤ q.line) (h : p.text = q.text) : p = q := by
  obtain ⟨l, c⟩ := p
  obtain ⟨l', c'⟩ := q
  dsimp only at hp hq
  have key : ∀ (a b x y : Str), (∀ d ∈ a, isDigitB d = true) → (∀ d ∈ b, isDigitB d = true) →
      a ++ 0x3A :: x = b ++ 0x3A :: y → a = b ∧ x = y := by
    intro a
    induction a with
    | nil =>
      intro b x y _ hb h
      cases b with
      | nil => simpa using h
      | cons d b =>
        simp at h
        have := hb d (by simp)
        rw [← h.1] at this
        simp [isDigitB] at this
    | cons d a ih =>
      intro b x y ha hb h
      cases b with
      | nil =>
        simp at h
        have := ha d (by simp)
        rw [h.1] at this
        simp [isDigitB] at this
      | cons d' b =>
        simp at h
        obtain ⟨h1, h2⟩ := ih b x y (fun d hd => ha d (by simp [hd])) (fun d hd => hb d (by simp [hd])) h.2
        exact ⟨by rw [h.1, h1], h2⟩
  have hd : ∀ n, ∀ d ∈ natDigits n, isDigitB d = true := fun n => List.all_eq_true.1 (natDigits_all n)
  have hn : ∀ (n m k : Nat), natDigits n ≠ natDigits m ++ lit ":" ++ natDigits k := by
    intro n m k h
    have := hd n 0x3A (by rw [h]; simp [lit])
    simp [isDigitB] at this
  simp only [Place.text, if_neg (show ¬ l = 0 by omega), if_neg (show ¬ l' = 0 by omega)] at h
  by_cases h1 : c = 0 <;> by_cases h2 : c' = 0
  · simp only [h1, h2, if_true] at h
    rw [natDigits_inj h, h1, h2]
  · simp only [h1, h2, if_true, if_false] at h
    exact absurd h (hn _ _ _)
  · simp only [h1, h2, if_true, if_false] at h
    exact absurd h.symm (hn _ _ _)
  · simp only [h1, h2, if_false, List.append_assoc] at h
    obtain ⟨h3, h4⟩ := key _ _ _ _ (hd l) (hd l') h
    rw [natDigits_inj h3, natDigits_inj h4]

/-- **C101** Every expression of a template has a position that is known: a line, counted from 1, and a column. -/
theorem C101_positions_are_known (L : GoLib) (s : Str) (xs : List (Expr × Place)) (h : gparse L s = .ok xs) :
    ∀ x ∈ xs, 1 ≤ x.2.line ∧ x.2.text ≠ lit "<unknown position>" := by
  have key : ∀ (xs : List (Expr × Place)) (lo : Nat), Located s lo xs → ∀ x ∈ xs, 1 ≤ x.2.line := by
    intro xs
    induction xs with
    | nil => intro _ _ x hx; cases hx
    | cons x xs ih =>
      intro lo hl y hy
      obtain ⟨e, p⟩ := x
      obtain ⟨off, _, _, _, hp, hl⟩ := hl
      rcases List.mem_cons.1 hy with rfl | hy
      · dsimp only
        rw [hp, placeAt]
        split <;> simp
      · exact ih _ hl y hy
  intro x hx
  have h1 := key xs 0 (C87_expressions_are_located L s xs h) x hx
  refine ⟨h1, fun h2 => ?_⟩
  have h3 : ∃ d r, x.2.text = d :: r ∧ isDigitB d = true := by
    have hne := natDigits_ne_nil x.2.line
    have hall := List.all_eq_true.1 (natDigits_all x.2.line)
    unfold Place.text
    rw [if_neg (by omega)]
    cases hd : natDigits x.2.line with
    | nil => exact absurd hd hne
    | cons d r =>
      rw [hd] at hall
      by_cases hc : x.2.col = 0
      · rw [if_pos hc]; exact ⟨d, r, rfl, hall d (by simp)⟩
      · rw [if_neg hc]; exact ⟨d, _, rfl, hall d (by simp)⟩
  obtain ⟨d, r, h3, h4⟩ := h3
  rw [h2] at h3
  have : d = 0x3C := by
    have := congrArg List.head? h3
    simpa [lit] using this.symm
  subst this
  simp [isDigitB] at h4

/-- The texts of the positions in a template of two lines. -/
example (L : GoLib) : gparse L (lit "a = $1\n#f") =
    .ok [(.plain (lit "a = "), ⟨1, 1⟩), (.bindVar dollar 1, ⟨1, 5⟩), (.plain (lit "\n"), ⟨2, 0⟩), (.func (lit "f"), ⟨2, 1⟩),
      (.plain [], ⟨2, 3⟩)] ∧
    Place.text ⟨1, 5⟩ = lit "1:5" ∧ Place.text ⟨2, 0⟩ = lit "2" :=
  ⟨by kernel_rfl, by decide, by decide⟩

end Sqlf.Props

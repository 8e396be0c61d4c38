import Verif.Spec.Literals
import Verif.Spec.Interpolate
import Verif.Proofs.Interpolate
import Verif.Proofs.Segments
import Verif.Proofs.Digits
import Verif.Proofs.EncodeText
/-!
# String literals in interpolated queries
-/

namespace Sqlf

open Spec

/-! ## What is outside of literals -/

def Spec.Mode.shows : Mode → UInt8 → Str
  | .literal, _ => []
  | .quote, b => if b = 0x27 then [] else [0x27, b]
  | _, b => [b]

theorem outsideFrom_cons (m : Mode) (b : UInt8) (t : Str) :
    outsideFrom m (b :: t) = m.shows b ++ outsideFrom (m.next b) t := by
  cases m <;> simp [outsideFrom, Mode.shows]

def ends (m : Mode) (s : Str) : Mode := s.foldl Mode.next m

def shown : Mode → Str → Str
  | _, [] => []
  | m, b :: t => m.shows b ++ shown (m.next b) t

theorem outsideFrom_append (m : Mode) (x r : Str) :
    outsideFrom m (x ++ r) = shown m x ++ outsideFrom (ends m x) r := by
  induction x generalizing m with
  | nil => rfl
  | cons b x ih => simp [outsideFrom_cons, shown, ih, ends]

/-- Between the pieces of a query. -/
def Spec.Mode.Between (m : Mode) : Prop := m = .sql ∨ m = .quote

theorem ends_append (m : Mode) (x y : Str) : ends m (x ++ y) = ends (ends m x) y := by simp [ends]

theorem shown_append (m : Mode) (x y : Str) : shown m (x ++ y) = shown m x ++ shown (ends m x) y := by
  induction x generalizing m with
  | nil => rfl
  | cons b x ih => simp [shown, ih, ends]

theorem ends_escape (x : Str) : ends .literal (escapeQuotes x) = .literal := by
  induction x with
  | nil => rfl
  | cons b x ih =>
    simp only [escapeQuotes]
    split
    · simpa [ends, Mode.next] using ih
    next h => simpa [ends, Mode.next, h] using ih

theorem shown_escape (x : Str) : shown .literal (escapeQuotes x) = [] := by
  induction x with
  | nil => rfl
  | cons b x ih =>
    simp only [escapeQuotes]
    split
    · simpa [shown, Mode.next, Mode.shows] using ih
    next h => simpa [shown, Mode.next, h, Mode.shows] using ih

theorem Spec.Mode.Between.next_quote {m : Mode} (h : m.Between) : m.next 0x27 = .literal := by
  rcases h with rfl | rfl <;> rfl

theorem ends_quoteString {m : Mode} (h : m.Between) (x : Str) : ends m (quoteString x) = .quote := by
  have : ends m (quoteString x) = ends (ends (ends m (lit "'")) (escapeQuotes x)) (lit "'") := by
    simp [quoteString, ends]
  have h1 : ends m (lit "'") = .literal := h.next_quote
  rw [this, h1, ends_escape]; rfl

theorem shown_quoteString {m : Mode} (h : m.Between) (x : Str) : shown m (quoteString x) = m.shows 0x27 := by
  have h1 : ends m (lit "'") = .literal := h.next_quote
  have h2 : shown m (lit "'") = m.shows 0x27 := by simp [lit, shown]
  rw [quoteString, List.append_assoc, shown_append, h1, shown_append, shown_escape, ends_escape, h2]
  show m.shows 0x27 ++ ([] ++ []) = _
  simp

theorem ends_plain {m : Mode} (h : m.Between) {s : Str} (hs : ∀ b ∈ s, plainByte b = true) : (ends m s).Between := by
  induction s generalizing m with
  | nil => exact h
  | cons b s ih =>
    refine ih ?_ (fun c hc => hs c (by simp [hc]))
    have hb := hs b (by simp)
    simp [plainByte] at hb
    rcases h with rfl | rfl <;> simp [Mode.next, hb, Mode.Between]

theorem ends_inside {s : Str} (h : 0x27 ∉ s) : ends .literal s = .literal := by
  induction s with
  | nil => rfl
  | cons b s ih =>
    have : b ≠ 0x27 := fun e => h (by simp [e])
    show ends (Mode.next .literal b) s = _
    simp only [Mode.next, this, if_false]
    exact ih (fun hm => h (by simp [hm]))

theorem ends_region {m : Mode} (hm : m.Between) {c : UInt8} (hc : c = 0x27 ∨ c = 0x22 ∨ c = 0x60) {t x u : Str}
    (h : region c t = some (x, u)) : (ends m (c :: x)).Between := by
  have key : ∀ {t x u : Str}, region c t = some (x, u) →
      (ends (if c = 0x27 then .literal else .name c) x).Between := by
    intro t x u h
    fun_induction region c t generalizing x u with
    | case1 => simp at h
    | case2 => 
      simp at h; obtain ⟨rfl, rfl⟩ := h
      rcases hc with rfl | rfl | rfl <;> simp [ends, Mode.next, Mode.Between]
    | case3 => simp at h
    | case4 => simp at h
    | case5 t _ hh hz ih =>
      simp only [Option.map_eq_some_iff] at h
      obtain ⟨⟨x', u'⟩, hr, he⟩ := h
      simp at he
      have := ih hr
      rw [← he.1]
      obtain ⟨rfl, rfl⟩ := hh
      simpa [ends, Mode.next] using this
    | case6 => 
      simp at h; obtain ⟨rfl, rfl⟩ := h
      rcases hc with rfl | rfl | rfl <;> simp [ends, Mode.next, Mode.Between]
    | case7 b b' t h1 h2 ih =>
      simp only [Option.map_eq_some_iff] at h
      obtain ⟨⟨x', u'⟩, hr, he⟩ := h
      simp at he
      have := ih hr
      rw [← he.1]
      show (ends (Mode.next _ b) x').Between
      have e : Mode.next (if c = 0x27 then .literal else .name c) b = if c = 0x27 then .literal else .name c := by
        split
        next hc => subst hc; simp [Mode.next, h2]
        next hc => simp [Mode.next, h2]
      rw [e]; exact this
  have e : m.next c = if c = 0x27 then .literal else .name c := by
    rcases hc with rfl | rfl | rfl <;> rcases hm with rfl | rfl <;> rfl
  show (ends (m.next c) x).Between
  rw [e]; exact key h

theorem digit_plain {b : UInt8} (h : isDigitB b = true) : plainByte b = true := by
  simp [isDigitB] at h
  simp [plainByte]
  refine ⟨⟨⟨⟨⟨⟨?_, ?_⟩, ?_⟩, ?_⟩, ?_⟩, ?_⟩, ?_⟩ <;> (rintro rfl; revert h; decide)

theorem natDigits_plain (n : Nat) : ∀ b ∈ natDigits n, plainByte b = true := fun _ hb =>
  digit_plain (List.all_eq_true.mp (natDigits_all n) _ hb)

theorem itoa_plain (i : Int) : ∀ b ∈ itoa i, plainByte b = true := by
  cases i with
  | ofNat n => exact natDigits_plain n
  | negSucc n =>
    intro b hb
    simp only [itoa, List.mem_cons] at hb
    rcases hb with rfl | hb
    · decide
    · exact natDigits_plain _ _ hb

/-- How values are written. -/
inductive Form (L : GoLib) (layout : Str) : Str → Prop
  | plain {s : Str} : (∀ b ∈ s, plainByte b = true) → Form L layout s
  | text (t : Str) : Form L layout (quoteString t)
  | time {s : Str} : 0x27 ∉ s → Form L layout (lit "'" ++ s ++ lit "'")

theorem form_of_encode {L : GoLib} {layout : Str} (hL : PlainFormats L layout) {v : Val} {x : Str}
    (h : encodeValue L layout v = .ok x) : Form L layout x := by
  fun_induction encodeValue L layout v with
  | case1 => simp at h; subst h; exact .plain (by decide)
  | case2 => simp at h
  | case3 _ _ _ _ ih => exact ih h
  | case4 => simp at h; subst h; exact .time (s := lit "0000-00-00") (by decide)
  | case5 => simp only [Out.ok.injEq] at h; subst h; exact .time (hL.1 _)
  | case6 => simp at h; subst h; exact .text _
  | case7 => simp at h; subst h; exact .plain (by decide)
  | case8 => simp at h; subst h; exact .plain (by decide)
  | case9 => simp at h; subst h; exact .plain (itoa_plain _)
  | case10 => simp at h; subst h; exact .plain (natDigits_plain _)
  | case11 => simp at h; subst h; exact .plain (hL.2 _)
  | case12 => simp at h; subst h; exact .text _
  | case13 => simp at h
  | case14 => simp at h

theorem ends_form {L : GoLib} {layout : Str} {x : Str} (h : Form L layout x) {m : Mode} (hm : m.Between) :
    (ends m x).Between := by
  cases h with
  | plain h => exact ends_plain hm h
  | text t => rw [ends_quoteString hm]; exact .inr rfl
  | time h =>
    have h1 : ends m (lit "'") = .literal := hm.next_quote
    rw [List.append_assoc, ends_append, h1, ends_append, ends_inside h]
    exact .inr rfl

theorem same_outside {L : GoLib} {layout : Str} (hL : PlainFormats L layout) {vs ws : List Val}
    (hvw : SameButTexts vs ws) (n : Nat) (k : Nat) (q : Bool) (s : Str) (es : List Expr)
    (h : readFrom L n k q s = some es) {m : Mode} (hm : m.Between) {r : Str} (hr : Filled L layout vs es r) :
    ∃ r', Filled L layout ws es r' ∧ outsideFrom m r = outsideFrom m r' := by
  induction n generalizing k q s es m r with
  | zero => simp [readFrom] at h
  | succ n ih =>
    have plain : ∀ {p u : Str} {k' q'}, (∀ {m : Mode}, m.Between → (ends m p).Between) →
        Option.map (.plain p :: ·) (readFrom L n k' q' u) = some es →
        ∃ r', Filled L layout ws es r' ∧ outsideFrom m r = outsideFrom m r' := by
      intro p u k' q' hp hu
      simp only [Option.map_eq_some_iff] at hu
      obtain ⟨es', hu, rfl⟩ := hu
      obtain ⟨r1, rfl, hr1⟩ := hr
      obtain ⟨r2, h2, h3⟩ := ih _ _ _ _ hu (hp hm) hr1
      exact ⟨p ++ r2, ⟨r2, rfl, h2⟩, by rw [outsideFrom_append, outsideFrom_append, h3]⟩
    have mark : ∀ {st i} {u : Str} {k' q'},
        Option.map (.bindVar st i :: ·) (readFrom L n k' q' u) = some es →
        ∃ r', Filled L layout ws es r' ∧ outsideFrom m r = outsideFrom m r' := by
      intro st i u k' q' hu
      simp only [Option.map_eq_some_iff] at hu
      obtain ⟨es', hu, rfl⟩ := hu
      obtain ⟨hi, v, x, r1, hv, hx, rfl, hr1⟩ := hr
      have hlt : (i - 1).toNat < ws.length := by
        rw [← hvw.1]; exact (List.getElem?_eq_some_iff.mp hv).1
      rw [← encodes_iff] at hx
      rcases hvw.2 _ v _ hv (List.getElem?_eq_getElem hlt) with e | ⟨e1, e2⟩
      · obtain ⟨r2, h2, h3⟩ := ih _ _ _ _ hu (ends_form (form_of_encode hL hx) hm) hr1
        refine ⟨x ++ r2, ⟨hi, v, x, r2, ?_, (encodes_iff ..).mp hx, rfl, h2⟩, ?_⟩
        · rw [e]; exact List.getElem?_eq_getElem hlt
        · rw [outsideFrom_append, outsideFrom_append, h3]
      · cases ht : textOf v with
        | none => exact absurd ht e1
        | some t =>
          cases ht' : textOf ws[(i - 1).toNat] with
          | none => exact absurd ht' e2
          | some t' =>
            rw [encode_text L layout ht] at hx
            simp only [Out.ok.injEq] at hx
            subst hx
            obtain ⟨r2, h2, h3⟩ := ih _ _ _ _ hu (m := .quote) (.inr rfl) hr1
            refine ⟨quoteString t' ++ r2, ⟨hi, _, _, r2, List.getElem?_eq_getElem hlt,
              (encodes_iff ..).mp (encode_text L layout ht'), rfl, h2⟩, ?_⟩
            rw [outsideFrom_append, outsideFrom_append, shown_quoteString hm, shown_quoteString hm,
              ends_quoteString hm, ends_quoteString hm, h3]
    cases s with
    | nil => simp [readFrom] at h; subst h; exact ⟨r, hr, rfl⟩
    | cons b t =>
      unfold readFrom at h
      split at h
      · simp at h; subst h; exact ⟨r, hr, rfl⟩
      next hb0 =>
      split at h
      next hsign =>
        split at h
        · refine plain ?_ h
          intro m hm
          rcases hsign with rfl | rfl <;> rcases hm with rfl | rfl <;> exact .inl rfl
        · split at h
          · split at h
            · simp at h
            · exact mark h
          · split at h
            · simp at h
            · exact mark h
      next hsign =>
        split at h
        next hh =>
          exfalso
          have fn : ∀ {es'}, (∃ name, es = .func name :: es') → False := by
            rintro es' ⟨name, rfl⟩; exact hr
          have cl : ∀ {es'}, (∃ name args, es = .call name args :: es') → False := by
            rintro es' ⟨name, args, rfl⟩; exact hr
          dsimp only at h
          repeat' split at h
          all_goals first
            | (simp at h; done)
            | (simp only [Option.map_eq_some_iff] at h; obtain ⟨es', _, rfl⟩ := h; exact hr)
            | (simp at h; subst h; exact hr)
        next hh =>
          split at h
          next hq =>
            split at h
            next hu => exact plain (fun hm => ends_region hm hq hu) h
            next hu =>
              simp only [Option.some.injEq] at h; subst h
              obtain ⟨r1, rfl, hr1⟩ := hr
              exact ⟨_, ⟨r1, rfl, hr1⟩, rfl⟩
          next hq =>
            refine plain (fun hm => ends_plain hm ?_) h
            simp at hsign hq
            simp [plainByte, hsign, hq, hh, hb0]

/-! ## What has no placeholders

A machine that accepts the texts that are read as plain text only. -/

inductive Scn where
  | sql | literal | quote | name (q : UInt8) | sign (b : UInt8) | bad

def Scn.next : Scn → UInt8 → Scn
  | .literal, b => if b = 0x27 then .quote else .literal
  | .name q, b => if b = q then .sql else .name q
  | .sign c, b => if b = c then .sql else .bad
  | .bad, _ => .bad
  | .sql, b | .quote, b =>
    if b = 0x27 then .literal else if b = 0x22 ∨ b = 0x60 then .name b
    else if b = 0x24 ∨ b = 0x3F then .sign b else if b = 0x23 then .bad else .sql

def scn (m : Scn) (s : Str) : Scn := s.foldl Scn.next m

def Scn.Ok : Scn → Prop
  | .sign _ => False
  | .bad => False
  | _ => True

def Scn.Between (m : Scn) : Prop := m = .sql ∨ m = .quote

theorem Scn.Between.ok {m : Scn} (h : m.Between) : m.Ok := by rcases h with rfl | rfl <;> trivial

theorem scn_append (m : Scn) (x y : Str) : scn m (x ++ y) = scn (scn m x) y := by simp [scn]

theorem scn_cons (m : Scn) (b : UInt8) (y : Str) : scn m (b :: y) = scn (m.next b) y := rfl

theorem scn_bad (s : Str) : scn .bad s = .bad := by
  induction s with
  | nil => rfl
  | cons b s ih => exact ih

theorem scn_inside {s : Str} (h : 0x27 ∉ s) : scn .literal s = .literal := by
  induction s with
  | nil => rfl
  | cons b s ih =>
    have : b ≠ 0x27 := fun e => h (by simp [e])
    rw [scn_cons]
    simp only [Scn.next, this, if_false]
    exact ih (fun hm => h (by simp [hm]))

theorem scn_escape (x : Str) : scn .literal (escapeQuotes x) = .literal := by
  induction x with
  | nil => rfl
  | cons b x ih =>
    simp only [escapeQuotes]
    split
    · simpa [scn, Scn.next] using ih
    next h => simpa [scn, Scn.next, h] using ih

theorem Scn.Between.next_quote {m : Scn} (h : m.Between) : m.next 0x27 = .literal := by
  rcases h with rfl | rfl <;> rfl

theorem scn_plain {m : Scn} (h : m.Between) {s : Str} (hs : ∀ b ∈ s, plainByte b = true) : (scn m s).Between := by
  induction s generalizing m with
  | nil => exact h
  | cons b s ih =>
    refine ih ?_ (fun c hc => hs c (by simp [hc]))
    have hb := hs b (by simp)
    simp [plainByte] at hb
    rcases h with rfl | rfl <;> simp [Scn.next, hb, Scn.Between]

theorem scn_form {L : GoLib} {layout : Str} {x : Str} (h : Form L layout x) {m : Scn} (hm : m.Between) :
    (scn m x).Between := by
  have h1 : scn m (lit "'") = .literal := hm.next_quote
  cases h with
  | plain h => exact scn_plain hm h
  | text t =>
    rw [quoteString, List.append_assoc, scn_append, h1, scn_append, scn_escape]
    exact .inr rfl
  | time h =>
    rw [List.append_assoc, scn_append, h1, scn_append, scn_inside h]
    exact .inr rfl

def inside (c : UInt8) : Scn := if c = 0x27 then .literal else .name c

theorem Scn.Between.inside {m : Scn} (hm : m.Between) {c : UInt8} (hc : c = 0x27 ∨ c = 0x22 ∨ c = 0x60) :
    m.next c = inside c := by
  rcases hc with rfl | rfl | rfl <;> rcases hm with rfl | rfl <;> rfl

theorem inside_next {c b : UInt8} (h : b ≠ c) : (inside c).next b = inside c := by
  unfold inside
  split
  next hc => subst hc; simp [Scn.next, h]
  next hc => simp [Scn.next, h]

theorem inside_end {c : UInt8} (hc : c = 0x27 ∨ c = 0x22 ∨ c = 0x60) :
    (inside c).next c = if c = 0x27 then .quote else .sql := by
  rcases hc with rfl | rfl | rfl <;> rfl

theorem scn_region {c : UInt8} (hc : c = 0x27 ∨ c = 0x22 ∨ c = 0x60) {t x u : Str}
    (h : region c t = some (x, u)) :
    scn (inside c) x = (if c = 0x27 then .quote else .sql) ∧ 0 ∉ x ∧ (c = 0x27 → u.head? ≠ some 0x27) := by
  have hc0 : c ≠ 0 := by rcases hc with rfl | rfl | rfl <;> decide
  fun_induction region c t generalizing x u with
  | case1 => simp at h
  | case2 =>
    simp at h; obtain ⟨rfl, rfl⟩ := h
    exact ⟨inside_end hc, by simpa using hc0.symm, by simp⟩
  | case3 => simp at h
  | case4 => simp at h
  | case5 t _ hh hz ih =>
    simp only [Option.map_eq_some_iff] at h
    obtain ⟨⟨x', u'⟩, hr, he⟩ := h
    simp at he
    obtain ⟨h1, h2, h3⟩ := ih hr
    rw [← he.1, ← he.2]
    obtain ⟨rfl, rfl⟩ := hh
    exact ⟨h1, by simpa using h2, h3⟩
  | case6 b' t h1 h2 =>
    simp at h; obtain ⟨rfl, rfl⟩ := h
    refine ⟨inside_end hc, by simpa using hc0.symm, ?_⟩
    intro e
    simp only [List.head?_cons, ne_eq, Option.some.injEq]
    intro e'
    simp_all
  | case7 b b' t h1 h2 ih =>
    simp only [Option.map_eq_some_iff] at h
    obtain ⟨⟨x', u'⟩, hr, he⟩ := h
    simp at he
    obtain ⟨h4, h5, h6⟩ := ih hr
    rw [← he.1, ← he.2]
    refine ⟨?_, by simpa [Ne.symm h1] using h5, h6⟩
    rw [scn_cons, inside_next h2]; exact h4

theorem scn_unclosed {c : UInt8} (hc : c = 0x27 ∨ c = 0x22 ∨ c = 0x60) {t : Str} (h : region c t = none) :
    (scn (inside c) (t.takeWhile (· ≠ 0))).Ok := by
  have hok : (inside c).Ok := by unfold inside; split <;> trivial
  fun_induction region c t with
  | case1 => exact hok
  | case2 => simp at h
  | case3 b hb =>
    by_cases h0 : b = 0
    · simpa [h0, scn] using hok
    · simpa [h0, scn, inside_next hb] using hok
  | case4 => simpa [scn] using hok
  | case5 t _ hh hz ih =>
    simp only [Option.map_eq_none_iff] at h
    obtain ⟨rfl, rfl⟩ := hh
    exact ih h
  | case6 => simp at h
  | case7 b b' t h1 h2 ih =>
    simp only [Option.map_eq_none_iff] at h
    have := ih h
    rw [List.takeWhile_cons]
    simp only [h1, ne_eq, not_false_eq_true, decide_true, if_true]
    rw [scn_cons, inside_next h2]; exact this

/-- A filled-in query is accepted. -/
theorem scn_filled {L : GoLib} {layout : Str} (hL : PlainFormats L layout) {vs : List Val}
    (n : Nat) (k : Nat) (q : Bool) (s : Str) (es : List Expr)
    (h : readFrom L n k q s = some es) {m : Scn} (hm : m.Between) {r : Str} (hr : Filled L layout vs es r) :
    (scn m r).Ok := by
  induction n generalizing k q s es m r with
  | zero => simp [readFrom] at h
  | succ n ih =>
    have plain : ∀ {p u : Str} {k' q'}, (∀ {m : Scn}, m.Between → (scn m p).Between) →
        Option.map (.plain p :: ·) (readFrom L n k' q' u) = some es → (scn m r).Ok := by
      intro p u k' q' hp hu
      simp only [Option.map_eq_some_iff] at hu
      obtain ⟨es', hu, rfl⟩ := hu
      obtain ⟨r1, rfl, hr1⟩ := hr
      rw [scn_append]
      exact ih _ _ _ _ hu (hp hm) hr1
    have mark : ∀ {st i} {u : Str} {k' q'},
        Option.map (.bindVar st i :: ·) (readFrom L n k' q' u) = some es → (scn m r).Ok := by
      intro st i u k' q' hu
      simp only [Option.map_eq_some_iff] at hu
      obtain ⟨es', hu, rfl⟩ := hu
      obtain ⟨hi, v, x, r1, hv, hx, rfl, hr1⟩ := hr
      rw [← encodes_iff] at hx
      rw [scn_append]
      exact ih _ _ _ _ hu (scn_form (form_of_encode hL hx) hm) hr1
    cases s with
    | nil => simp [readFrom] at h; subst h; cases hr; exact hm.ok
    | cons b t =>
      unfold readFrom at h
      split at h
      · simp at h; subst h; cases hr; exact hm.ok
      next hb0 =>
      split at h
      next hsign =>
        split at h
        · refine plain ?_ h
          intro m hm
          rcases hsign with rfl | rfl <;> rcases hm with rfl | rfl <;> exact .inl rfl
        · split at h
          · split at h
            · simp at h
            · exact mark h
          · split at h
            · simp at h
            · exact mark h
      next hsign =>
        split at h
        next hh =>
          exfalso
          dsimp only at h
          repeat' split at h
          all_goals first
            | (simp at h; done)
            | (simp only [Option.map_eq_some_iff] at h; obtain ⟨es', _, rfl⟩ := h; exact hr)
            | (simp at h; subst h; exact hr)
        next hh =>
          split at h
          next hq =>
            split at h
            next hu =>
              refine plain (fun hm => ?_) h
              rw [scn_cons, hm.inside hq, (scn_region hq hu).1]
              split
              · exact .inr rfl
              · exact .inl rfl
            next hu =>
              simp only [Option.some.injEq] at h; subst h
              obtain ⟨r1, rfl, hr1⟩ := hr
              cases hr1
              rw [List.append_nil, scn_cons, hm.inside hq]
              exact scn_unclosed hq hu
          next hq =>
            refine plain (fun hm => scn_plain hm ?_) h
            simp at hsign hq
            simp [plainByte, hsign, hq, hh, hb0]

theorem beforeNul_cons {b : UInt8} (h : b ≠ 0) (t : Str) : beforeNul (b :: t) = b :: beforeNul t := by
  simp [beforeNul, h]

theorem beforeNul_append {x : Str} (h : 0 ∉ x) (u : Str) : beforeNul (x ++ u) = x ++ beforeNul u := by
  induction x with
  | nil => rfl
  | cons b x ih =>
    have hb : b ≠ 0 := fun e => h (by simp [e])
    rw [List.cons_append, beforeNul_cons hb, ih (fun hm => h (by simp [hm]))]; rfl

/-- An accepted text is read as plain text. -/
theorem read_accepted {L : GoLib} {layout : Str} {vs : List Val} (n : Nat) (k : Nat) (q : Bool) (s : Str)
    (hn : s.length < n) (h : (scn .sql s).Ok) :
    ∃ es, readFrom L n k q s = some es ∧ Filled L layout vs es (beforeNul s) := by
  induction n generalizing k q s with
  | zero => simp at hn
  | succ n ih =>
    cases s with
    | nil => exact ⟨[], by simp [readFrom], rfl⟩
    | cons b t =>
      have step : ∀ {p u : Str}, (hlt : u.length < n) → (scn .sql u).Ok → beforeNul (b :: t) = p ++ beforeNul u →
          ∃ es, Option.map (.plain p :: ·) (readFrom L n k q u) = some es ∧
            Filled L layout vs es (beforeNul (b :: t)) := by
        intro p u hlt hu hp
        obtain ⟨es, h1, h2⟩ := ih k q u hlt hu
        exact ⟨.plain p :: es, by rw [h1]; rfl, _, hp, h2⟩
      simp only [List.length_cons] at hn
      unfold readFrom
      split
      next hb => exact ⟨[], rfl, by subst hb; simp [beforeNul, Filled]⟩
      next hb0 =>
      rw [scn_cons] at h
      split
      next hsign =>
        have hnx : Scn.next .sql b = .sign b := by rcases hsign with rfl | rfl <;> rfl
        rw [hnx] at h
        cases t with
        | nil => exact absurd h id
        | cons b' t =>
          rw [scn_cons] at h
          by_cases hbb : b' = b
          · subst hbb
            rw [if_pos (by rfl)]
            simp only [Scn.next, if_true] at h
            refine step (by simp at hn ⊢; omega) h ?_
            rw [beforeNul_cons hb0, beforeNul_cons hb0]; rfl
          · simp only [Scn.next, hbb, if_false] at h
            rw [scn_bad] at h; exact absurd h id
      next hsign =>
        simp at hsign
        split
        next hh =>
          subst hh
          have : Scn.next .sql 0x23 = .bad := rfl
          rw [this, scn_bad] at h; exact absurd h id
        next hh =>
          split
          next hq =>
            rw [Scn.Between.inside (.inl rfl) hq] at h
            split
            next x u hu =>
              obtain ⟨h1, h2, h3⟩ := scn_region hq hu
              have ht := region_split hu
              refine step (u := u) ?_ ?_ ?_
              · have : t.length = x.length + u.length := by rw [ht]; simp
                omega
              · rw [ht, scn_append, h1] at h
                split at h
                next hc =>
                  have := h3 hc
                  cases u with
                  | nil => trivial
                  | cons c u =>
                    have e : c ≠ 0x27 := by simpa using this
                    rw [scn_cons] at h ⊢
                    simpa [Scn.next, e] using h
                next => exact h
              · rw [beforeNul_cons hb0, ht, beforeNul_append h2]; rfl
            next hu =>
              exact ⟨_, rfl, [], by simp [beforeNul, hb0], rfl⟩
          next hq =>
            simp at hq
            refine step (u := t) (by omega) ?_ (by rw [beforeNul_cons hb0]; rfl)
            simpa [Scn.next, hsign, hq, hh] using h

end Sqlf

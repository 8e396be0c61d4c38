import Verif.Spec.Taken
import Verif.Proofs.Memory
import Verif.Proofs.Dest
import Verif.Proofs.Kept
/-!
# Lemmas: lists of arguments
-/

namespace Sqlf

open Spec

/-- What `append` to `s` does to a slice that does not reach into its spare room. -/
theorem append_other {A : List (List α)} {s l : Slice} (grow : Nat → Nat) (z : α) (hs : InBounds A s) (hl : InBounds A l) (xs : List α)
    (h : 0 < s.cap → 0 < l.cap → l.arr = s.arr → l.off + l.len ≤ s.off + s.len) :
    l.read (s.append grow z A xs).1 = l.read A ∧ InBounds (s.append grow z A xs).1 l := by
  unfold Slice.append
  split
  · next hle =>
    by_cases hc : 0 < s.cap
    · obtain ⟨a, ha, hal⟩ := hs.2 hc
      by_cases hlc : 0 < l.cap
      · obtain ⟨b, hb, hbl⟩ := hl.2 hlc
        by_cases he : s.arr = l.arr
        · rw [← he, ha] at hb
          cases hb
          refine ⟨?_, hl.1, fun _ => ⟨overwrite a (s.off + s.len) xs, ?_, ?_⟩⟩
          · unfold Slice.read
            rw [List.getD_eq_getElem?_getD, List.getD_eq_getElem?_getD, List.getElem?_modify, ← he, ha]
            simp only [if_true, Option.map_eq_map, Option.map_some, Option.getD_some]
            exact overwrite_other a _ xs (by omega) _ _ (.inl (h hc hlc he.symm))
          · rw [List.getElem?_modify, ← he, ha]; simp
          · rw [overwrite_length _ _ _ (by omega)]; exact hbl
        · refine ⟨?_, hl.1, fun _ => ⟨b, ?_, hbl⟩⟩
          · unfold Slice.read
            rw [List.getD_eq_getElem?_getD, List.getD_eq_getElem?_getD, List.getElem?_modify]
            simp [he]
          · rw [List.getElem?_modify, hb]; simp [he]
      · have : l.len = 0 := by have := hl.1; omega
        exact ⟨by simp [Slice.read, this], hl.1, fun h => absurd h hlc⟩
    · have hx : xs = [] := List.length_eq_zero_iff.1 (by omega)
      subst hx
      have hm : (A.modify s.arr fun a => overwrite a (s.off + s.len) []) = A := by
        apply List.ext_getElem?
        intro k
        rw [List.getElem?_modify]
        cases A[k]? with
        | none => rfl
        | some b => by_cases he : s.arr = k <;> simp [overwrite, he]
      rw [hm]
      exact ⟨rfl, hl⟩
  · exact ⟨hl.read_append _, hl.append _⟩

/-- What `append` to `s` returns. -/
theorem append_self {A : List (List α)} {s : Slice} (grow : Nat → Nat) (z : α) (hs : InBounds A s) (xs : List α) :
    (s.append grow z A xs).2.read (s.append grow z A xs).1 = s.read A ++ xs ∧ InBounds (s.append grow z A xs).1 (s.append grow z A xs).2 := by
  have hi : SliceInv A [s] := by
    refine ⟨fun i t ht => ?_, fun i j t u hij ht hu => ?_⟩
    · have := List.mem_of_getElem? ht
      rw [List.mem_singleton.1 this]
      exact hs
    · have h1 := (List.getElem?_eq_some_iff.1 ht).1
      have h2 := (List.getElem?_eq_some_iff.1 hu).1
      simp at h1 h2
      omega
  obtain ⟨h1, h2, -⟩ := Slice.append_spec hi grow z 0 s rfl xs
  exact ⟨h2, h1.bounds 0 _ rfl⟩

/-- Where the slice that `append` returns is. -/
theorem append_where (grow : Nat → Nat) (z : α) (A : List (List α)) (s : Slice) (xs : List α) :
    ((s.append grow z A xs).2.arr = s.arr ∧ (s.append grow z A xs).2.cap = s.cap ∧ (s.append grow z A xs).2.off = s.off ∧
        s.len ≤ (s.append grow z A xs).2.len) ∨ (s.append grow z A xs).2.arr = A.length := by
  unfold Slice.append
  split
  · exact .inl ⟨rfl, rfl, rfl, Nat.le_add_right _ _⟩
  · exact .inr rfl

/-- Two slices in different arrays. -/
def Apart (s l : Slice) : Prop := 0 < s.cap → 0 < l.cap → s.arr ≠ l.arr

theorem append_apart {A : List (List α)} {s l : Slice} (grow : Nat → Nat) (z : α) (hl : InBounds A l) (xs : List α) (h : Apart s l) :
    Apart (s.append grow z A xs).2 l := by
  intro h1 h2 he
  rcases append_where grow z A s xs with ⟨h3, h4, -, -⟩ | h3
  · exact h (by omega) h2 (by omega)
  · have := hl.lt h2; omega

theorem append_bounds {A : List (List α)} {s l : Slice} (grow : Nat → Nat) (z : α) (hs : InBounds A s) (hl : InBounds A l) (xs : List α) :
    InBounds (s.append grow z A xs).1 l := by
  unfold Slice.append
  split
  · next hle =>
    refine ⟨hl.1, fun hlc => ?_⟩
    obtain ⟨b, hb, hbl⟩ := hl.2 hlc
    rw [List.getElem?_modify, hb]
    by_cases he : s.arr = l.arr
    · refine ⟨overwrite b (s.off + s.len) xs, by simp [he], ?_⟩
      by_cases hc : 0 < s.cap
      · obtain ⟨a, ha, hal⟩ := hs.2 hc
        rw [he, hb] at ha
        cases ha
        rw [overwrite_length _ _ _ (by omega)]
        exact hbl
      · have hx : xs = [] := List.length_eq_zero_iff.1 (by omega)
        subst hx
        simpa [overwrite] using hbl
    · exact ⟨b, by simp [he], hbl⟩
  · exact hl.append _

/-- The slices of the context `c`: of its store, and the lists that come from it. -/
def Own (c : Nat) (m : AMem) (s : Slice) : Prop :=
  (∃ st, m.stores[c]? = some st ∧ st.args = s) ∨ ∃ t : Nat, m.lists[t]? = some (c, s)

/-- The slices of the other contexts. -/
def Foreign (c : Nat) (m : AMem) (s : Slice) : Prop :=
  (∃ (i : Nat) (st : SStore), i ≠ c ∧ m.stores[i]? = some st ∧ st.args = s) ∨ ∃ (t d : Nat), d ≠ c ∧ m.lists[t]? = some (d, s)

/-- The arrays of the context `c` are its own, and its lists end before the spare room of its store. -/
structure AMem.Inv (c : Nat) (m : AMem) : Prop where
  own : ∀ s, Own c m s → InBounds m.vals s
  foreign : ∀ s, Foreign c m s → InBounds m.vals s
  apart : ∀ f o, Foreign c m f → Own c m o → Apart f o
  inside : ∀ (t : Nat) (l : Slice) (s : SStore), m.lists[t]? = some (c, l) → m.stores[c]? = some s → 0 < s.args.cap → 0 < l.cap →
    l.arr = s.args.arr → l.off + l.len ≤ s.args.off + s.args.len

/-- The slices and the values agree on the context `c`. -/
structure SameOn (c : Nat) (m : AMem) (v : AVals) : Prop where
  count : m.stores.length = v.stores.length
  origins : m.lists.map (·.1) = v.lists.map (·.1)
  store : storeAt m c = v.stores[c]?
  list : ∀ (t : Nat) (l : Slice), m.lists[t]? = some (c, l) → v.lists[t]? = some (c, l.read m.vals)

/-- A step that leaves the slices of `c` alone. -/
private theorem foreign_step {c : Nat} {m m' : AMem} {v v' : AVals} (hi : m.Inv c) (hs : SameOn c m v)
    (hread : ∀ o, Own c m o → o.read m'.vals = o.read m.vals ∧ InBounds m'.vals o)
    (hb : ∀ f, Foreign c m' f → InBounds m'.vals f) (hap : ∀ f o, Foreign c m' f → Own c m o → Apart f o)
    (hst : m'.stores[c]? = m.stores[c]?) (hls : ∀ (t : Nat) (l : Slice), m'.lists[t]? = some (c, l) → m.lists[t]? = some (c, l))
    (hn : m'.stores.length = v'.stores.length) (ho : m'.lists.map (·.1) = v'.lists.map (·.1)) (hv : v'.stores[c]? = v.stores[c]?)
    (hvl : ∀ (t : Nat) (xs : List Val), v.lists[t]? = some (c, xs) → v'.lists[t]? = some (c, xs)) : m'.Inv c ∧ SameOn c m' v' := by
  have hown : ∀ o, Own c m' o → Own c m o := by
    rintro o (⟨st, h1, h2⟩ | ⟨t, h⟩)
    · exact .inl ⟨st, hst ▸ h1, h2⟩
    · exact .inr ⟨t, hls t o h⟩
  refine ⟨⟨fun s h => (hread s (hown s h)).2, hb, fun f o hf h => hap f o hf (hown o h), fun t l s h1 h2 => hi.inside t l s (hls t l h1) (hst ▸ h2)⟩,
    hn, ho, ?_, fun t l h => ?_⟩
  · rw [hv, ← hs.store]
    unfold storeAt
    rw [hst]
    cases hx : m.stores[c]? with
    | none => rfl
    | some st => simp [(hread st.args (.inl ⟨st, hx, rfl⟩)).1]
  · have h' := hls t l h
    rw [(hread l (.inr ⟨t, h'⟩)).1]
    exact hvl t _ (hs.list t l h')

/-- The store of a context after `append`. -/
private theorem own_append {c : Nat} {m : AMem} {v : AVals} (grow : Nat → Nat) (hi : m.Inv c) (hs : SameOn c m v) {st : SStore}
    (hst : m.stores[c]? = some st) (x : Val) (d : List (Val × Nat)) :
    let r := st.args.append grow .nil m.vals [x]
    AMem.Inv c ⟨r.1, m.stores.set c { st with dict := d, args := r.2 }, m.lists⟩ ∧
    SameOn c ⟨r.1, m.stores.set c { st with dict := d, args := r.2 }, m.lists⟩
      { v with stores := v.stores.set c ⟨st.isDollar, st.args.read m.vals ++ [x], d⟩ } := by
  intro r
  have hown : Own c m st.args := .inl ⟨st, hst, rfl⟩
  have hlt : c < m.stores.length := (List.getElem?_eq_some_iff.1 hst).1
  obtain ⟨h1, h2⟩ := append_self grow Val.nil (hi.own _ hown) [x]
  have hl : ∀ (t : Nat) (l : Slice), m.lists[t]? = some (c, l) → l.read r.1 = l.read m.vals ∧ InBounds r.1 l := fun t l h =>
    append_other grow .nil (hi.own _ hown) (hi.own l (.inr ⟨t, h⟩)) [x] (hi.inside t l st h hst)
  have hfor : ∀ f, Foreign c ⟨r.1, m.stores.set c { st with dict := d, args := r.2 }, m.lists⟩ f → Foreign c m f := by
    rintro f (⟨i, s', h3, h4, h5⟩ | h)
    · rw [List.getElem?_set_ne (fun e => h3 e.symm)] at h4
      exact .inl ⟨i, s', h3, h4, h5⟩
    · exact .inr h
  refine ⟨⟨?_, ?_, ?_, ?_⟩, ?_, hs.origins, ?_, ?_⟩
  · rintro s (⟨s', h3, rfl⟩ | ⟨t, h⟩)
    · rw [List.getElem?_set_self hlt] at h3
      cases h3
      exact h2
    · exact (hl t s h).2
  · intro f hf
    exact append_bounds grow .nil (hi.own _ hown) (hi.foreign f (hfor f hf)) [x]
  · rintro f o hf (⟨s', h3, rfl⟩ | ⟨t, h⟩)
    · rw [List.getElem?_set_self hlt] at h3
      cases h3
      have := append_apart grow Val.nil (s := st.args) (l := f) (hi.foreign f (hfor f hf)) [x]
        (fun a b e => hi.apart f _ (hfor f hf) hown b a e.symm)
      exact fun a b e => this b a e.symm
    · exact hi.apart f o (hfor f hf) (.inr ⟨t, h⟩)
  · intro t l s h3 h4 h5 h6 h7
    have h4 : (m.stores.set c { st with dict := d, args := r.2 })[c]? = some s := h4
    rw [List.getElem?_set_self hlt] at h4
    cases h4
    have h3 : m.lists[t]? = some (c, l) := h3
    rcases append_where grow Val.nil m.vals st.args [x] with ⟨e1, e2, e3, e4⟩ | e1
    · have := hi.inside t l st h3 hst (by have h5 : 0 < r.2.cap := h5; have e2 : r.2.cap = st.args.cap := e2; omega) h6 (h7.trans e1)
      show l.off + l.len ≤ r.2.off + r.2.len
      have e3 : r.2.off = st.args.off := e3
      have e4 : st.args.len ≤ r.2.len := e4
      omega
    · have h8 := (hi.own l (.inr ⟨t, h3⟩)).lt h6
      have h7 : l.arr = r.2.arr := h7
      have e1 : r.2.arr = m.vals.length := e1
      omega
  · simp [hs.count]
  · have hlt' : c < v.stores.length := hs.count ▸ hlt
    show storeAt _ c = (v.stores.set c _)[c]?
    unfold storeAt
    dsimp only
    rw [List.getElem?_set_self hlt, List.getElem?_set_self hlt', Option.map_some]
    exact congrArg (fun a => some (Store.mk st.isDollar a d)) h1
  · intro t l h
    rw [(hl t l h).1]
    exact hs.list t l h

/-- The store of another context after `append`. -/
private theorem other_append {c i : Nat} {m : AMem} {v v' : AVals} (grow : Nat → Nat) (hi : m.Inv c) (hs : SameOn c m v) {st : SStore}
    (hic : i ≠ c) (hst : m.stores[i]? = some st) (x : Val) (d : List (Val × Nat)) (h1 : v'.stores.length = v.stores.length)
    (h2 : v'.lists = v.lists) (h3 : v'.stores[c]? = v.stores[c]?) :
    let r := st.args.append grow .nil m.vals [x]
    AMem.Inv c ⟨r.1, m.stores.set i { st with dict := d, args := r.2 }, m.lists⟩ ∧
    SameOn c ⟨r.1, m.stores.set i { st with dict := d, args := r.2 }, m.lists⟩ v' := by
  intro r
  have hf : Foreign c m st.args := .inl ⟨i, st, hic, hst, rfl⟩
  have hlt : i < m.stores.length := (List.getElem?_eq_some_iff.1 hst).1
  have hfor : ∀ f, Foreign c ⟨r.1, m.stores.set i { st with dict := d, args := r.2 }, m.lists⟩ f → Foreign c m f ∨ f = r.2 := by
    rintro f (⟨j, s', h3, h4, h5⟩ | h)
    · by_cases he : i = j
      · subst he
        rw [List.getElem?_set_self hlt] at h4
        cases h4
        exact .inr h5.symm
      · rw [List.getElem?_set_ne he] at h4
        exact .inl (.inl ⟨j, s', h3, h4, h5⟩)
    · exact .inl (.inr h)
  refine foreign_step hi hs (fun o ho => append_other grow .nil (hi.foreign _ hf) (hi.own o ho) [x] fun a b e => absurd e.symm (hi.apart _ o hf ho a b))
    (fun f h => ?_) (fun f o h ho => ?_) (List.getElem?_set_ne hic) (fun _ _ h => h) (by simp [h1, hs.count]) (h2 ▸ hs.origins) h3 (fun t xs h => h2 ▸ h)
  · rcases hfor f h with h | rfl
    · exact append_bounds grow .nil (hi.foreign _ hf) (hi.foreign f h) [x]
    · exact (append_self grow Val.nil (hi.foreign _ hf) [x]).2
  · rcases hfor f h with h | rfl
    · exact hi.apart f o h ho
    · exact append_apart grow .nil (hi.own o ho) [x] (hi.apart _ o hf ho)

private theorem set_same (l : List α) (i : Nat) (a : α) (h : l[i]? = some a) : l.set i a = l := by
  obtain ⟨hlt, he⟩ := List.getElem?_eq_some_iff.1 h
  rw [← he, List.set_getElem_self]

theorem taken_step (grow : Nat → Nat) {c : Nat} {m : AMem} {v : AVals} (hi : m.Inv c) (hs : SameOn c m v) (o : AOp)
    (ho : ¬ ListChanged v c o) : (o.run grow m).Inv c ∧ SameOn c (o.run grow m) (valuesStep v o) := by
  have horig : ∀ t : Nat, (m.lists[t]?).map (·.1) = (v.lists[t]?).map (·.1) := by
    intro t
    have := congrArg (·[t]?) hs.origins
    simpa using this
  cases o with
  | new style =>
    simp only [AOp.run, valuesStep]
    have hfor : ∀ f, Foreign c { m with stores := m.stores ++ [⟨style = dollar, .nil, []⟩] } f → Foreign c m f ∨ f = .nil := by
      rintro f (⟨j, s', h3, h4, h5⟩ | h)
      · by_cases hj : j < m.stores.length
        · rw [List.getElem?_append_left hj] at h4
          exact .inl (.inl ⟨j, s', h3, h4, h5⟩)
        · rw [List.getElem?_append_right (by omega)] at h4
          have := List.mem_of_getElem? h4
          rw [List.mem_singleton.1 this] at h5
          exact .inr h5.symm
      · exact .inl (.inr h)
    have hown : ∀ f, Own c { m with stores := m.stores ++ [⟨style = dollar, .nil, []⟩] } f → Own c m f ∨ f = .nil := by
      rintro f (⟨s', h4, h5⟩ | h)
      · by_cases hj : c < m.stores.length
        · rw [List.getElem?_append_left hj] at h4
          exact .inl (.inl ⟨s', h4, h5⟩)
        · rw [List.getElem?_append_right (by omega)] at h4
          have := List.mem_of_getElem? h4
          rw [List.mem_singleton.1 this] at h5
          exact .inr h5.symm
      · exact .inl (.inr h)
    have hnil : ∀ A : List (List Val), InBounds A Slice.nil := fun A => ⟨Nat.le_refl _, fun h => absurd h (Nat.lt_irrefl 0)⟩
    refine ⟨⟨fun s h => ?_, fun s h => ?_, fun f o hf ho => ?_, fun t l s h1 h2 h3 => ?_⟩, by simp [hs.count], hs.origins, ?_, hs.list⟩
    · rcases hown s h with h | rfl
      · exact hi.own s h
      · exact hnil _
    · rcases hfor s h with h | rfl
      · exact hi.foreign s h
      · exact hnil _
    · rcases hfor f hf with hf | rfl
      · rcases hown o ho with ho | rfl
        · exact hi.apart f o hf ho
        · exact fun _ h => absurd h (Nat.lt_irrefl 0)
      · exact fun h => absurd h (Nat.lt_irrefl 0)
    · by_cases hj : c < m.stores.length
      · exact hi.inside t l s h1 (by rw [← h2]; exact (List.getElem?_append_left hj).symm) h3
      · have h2 : (m.stores ++ [⟨style = dollar, .nil, []⟩])[c]? = some s := h2
        rw [List.getElem?_append_right (by omega)] at h2
        have := List.mem_of_getElem? h2
        rw [List.mem_singleton.1 this] at h3
        exact absurd h3 (Nat.lt_irrefl 0)
    · have hst := hs.store
      unfold storeAt at hst ⊢
      dsimp only
      by_cases hj : c < m.stores.length
      · rw [List.getElem?_append_left hj, List.getElem?_append_left (hs.count ▸ hj)]
        exact hst
      · rw [List.getElem?_append_right (by omega), List.getElem?_append_right (by rw [← hs.count]; omega), hs.count]
        cases c - v.stores.length with
        | zero => simp [Slice.read, Slice.nil, Store.new]
        | succ n => simp
  | commit i x =>
    by_cases hic : i = c
    · subst hic
      simp only [AOp.run, valuesStep]
      have hst := hs.store
      unfold storeAt at hst
      cases h1 : m.stores[i]? with
      | none =>
        rw [h1] at hst
        rw [← hst]
        exact ⟨hi, hs⟩
      | some st =>
        rw [h1] at hst
        rw [← hst]
        have hlen := read_length (hi.own st.args (.inl ⟨st, h1, rfl⟩))
        have hsame : (⟨m.vals, m.stores.set i st, m.lists⟩ : AMem) = m := by rw [set_same _ _ _ h1]
        have hsame' : ({ v with stores := v.stores.set i ⟨st.isDollar, st.args.read m.vals, st.dict⟩ } : AVals) = v := by
          rw [set_same _ _ _ hst.symm]
        simp only [Option.map_some, SStore.commit, Store.commit]
        cases hd : st.isDollar with
        | false =>
          simp only [Bool.false_eq_true, if_false]
          have := own_append grow hi hs h1 x st.dict
          rw [hd] at this
          exact this
        | true =>
          simp only [if_true]
          by_cases hh : x.hashable
          · simp only [hh, Bool.not_true, Bool.false_eq_true, if_false]
            cases hl : dictLookup st.dict x with
            | some k =>
              dsimp only
              rw [hd] at hsame'
              rw [hsame, hsame']
              exact ⟨hi, hs⟩
            | none =>
              dsimp only
              rw [hlen]
              have := own_append grow hi hs h1 x ((x, st.args.len + 1) :: st.dict)
              rw [hd] at this
              exact this
          · simp only [hh, Bool.not_false, if_true]
            rw [hsame]
            exact ⟨hi, hs⟩
    · -- another context
      have hv : (valuesStep v (.commit i x)).stores.length = v.stores.length ∧ (valuesStep v (.commit i x)).lists = v.lists ∧
          (valuesStep v (.commit i x)).stores[c]? = v.stores[c]? := by
        simp only [valuesStep]
        split
        · exact ⟨rfl, rfl, rfl⟩
        · split
          · exact ⟨rfl, rfl, rfl⟩
          · exact ⟨by simp, rfl, List.getElem?_set_ne hic⟩
      simp only [AOp.run]
      revert hv
      generalize valuesStep v (.commit i x) = w
      rintro ⟨e1, e2, e3⟩
      have hskip : SameOn c m w := ⟨hs.count.trans e1.symm, e2 ▸ hs.origins, e3 ▸ hs.store, fun t l h => e2 ▸ hs.list t l h⟩
      cases h1 : m.stores[i]? with
      | none => exact ⟨hi, hskip⟩
      | some st =>
        have hsame : (⟨m.vals, m.stores.set i st, m.lists⟩ : AMem) = m := by rw [set_same _ _ _ h1]
        simp only [SStore.commit]
        split
        · split
          · dsimp only; rw [hsame]; exact ⟨hi, hskip⟩
          · split
            · dsimp only; rw [hsame]; exact ⟨hi, hskip⟩
            · exact other_append grow hi hs hic h1 x _ e1 e2 e3
        · exact other_append grow hi hs hic h1 x st.dict e1 e2 e3
  | args i =>
    simp only [AOp.run, valuesStep]
    cases h1 : m.stores[i]? with
    | none =>
      have : v.stores[i]? = none := by
        rw [List.getElem?_eq_none_iff] at h1 ⊢
        rw [← hs.count]; exact h1
      rw [this]
      exact ⟨hi, hs⟩
    | some st =>
      have hlt : i < v.stores.length := hs.count ▸ (List.getElem?_eq_some_iff.1 h1).1
      rw [List.getElem?_eq_getElem hlt]
      dsimp only
      have hnew : ∀ (t d : Nat) (l : Slice), (m.lists ++ [(i, st.args)])[t]? = some (d, l) → m.lists[t]? = some (d, l) ∨ (t = m.lists.length ∧ d = i ∧ l = st.args) := by
        intro t d l h
        by_cases ht : t < m.lists.length
        · rw [List.getElem?_append_left ht] at h
          exact .inl h
        · rw [List.getElem?_append_right (by omega)] at h
          have h2 := List.mem_of_getElem? h
          have h3 := (List.getElem?_eq_some_iff.1 h).1
          rw [List.length_singleton] at h3
          simp at h2
          exact .inr ⟨by omega, h2.1, h2.2⟩
      have hown : ∀ s, Own c { m with lists := m.lists ++ [(i, st.args)] } s → Own c m s := by
        rintro s (h | ⟨t, h⟩)
        · exact .inl h
        · rcases hnew t c s h with h | ⟨-, h2, h3⟩
          · exact .inr ⟨t, h⟩
          · exact .inl ⟨st, h2 ▸ h1, h3.symm⟩
      have hfor : ∀ s, Foreign c { m with lists := m.lists ++ [(i, st.args)] } s → Foreign c m s := by
        rintro s (h | ⟨t, d, hd, h⟩)
        · exact .inl h
        · rcases hnew t d s h with h | ⟨-, h2, h3⟩
          · exact .inr ⟨t, d, hd, h⟩
          · exact .inl ⟨i, st, h2 ▸ hd, h1, h3.symm⟩
      refine ⟨⟨fun s h => hi.own s (hown s h), fun s h => hi.foreign s (hfor s h), fun f o hf ho => hi.apart f o (hfor f hf) (hown o ho),
        fun t l s h2 h3 => ?_⟩, hs.count, by simp [hs.origins], hs.store, fun t l h => ?_⟩
      · rcases hnew t c l h2 with h | ⟨-, h4, rfl⟩
        · exact hi.inside t l s h h3
        · subst h4
          have h3 : m.stores[c]? = some s := h3
          rw [h1] at h3
          cases h3
          exact fun _ _ _ => Nat.le_refl _
      · have hll : m.lists.length = v.lists.length := by simpa using congrArg List.length hs.origins
        rcases hnew t c l h with h | ⟨rfl, h4, rfl⟩
        · have := hs.list t l h
          show (v.lists ++ _)[t]? = _
          rw [List.getElem?_append_left (List.getElem?_eq_some_iff.1 this).1]
          exact this
        · subst h4
          have hst := hs.store
          unfold storeAt at hst
          rw [h1, List.getElem?_eq_getElem hlt] at hst
          simp only [Option.map_some, Option.some.injEq] at hst
          show (v.lists ++ _)[m.lists.length]? = _
          rw [hll, List.getElem?_append_right (Nat.le_refl _), ← hst]
          simp
  | assign t i x =>
    simp only [AOp.run, valuesStep]
    have hg := horig t
    cases h1 : m.lists[t]? with
    | none =>
      rw [h1] at hg
      cases h2 : v.lists[t]? with
      | some y => rw [h2] at hg; cases hg
      | none => exact ⟨hi, hs⟩
    | some y =>
      obtain ⟨d, l⟩ := y
      rw [h1] at hg
      cases h2 : v.lists[t]? with
      | none => rw [h2] at hg; cases hg
      | some y' =>
        obtain ⟨d', xs⟩ := y'
        rw [h2] at hg
        simp only [Option.map_some, Option.some.injEq] at hg
        subst hg
        have hdc : d ≠ c := fun e => ho ⟨xs, e ▸ h2⟩
        have hf : Foreign c m l := .inr ⟨t, d, hdc, h1⟩
        have hset : ∀ u : Nat, (v.lists.set t (d, xs.set i x)).map (·.1) = v.lists.map (·.1) := by
          intro _
          rw [List.map_set]
          exact set_same _ _ _ (by rw [List.getElem?_map, h2]; rfl)
        have hvl : ∀ (u : Nat) (ys : List Val), v.lists[u]? = some (c, ys) → (v.lists.set t (d, xs.set i x))[u]? = some (c, ys) := by
          intro u ys h
          by_cases hu : t = u
          · subst hu
            rw [h2] at h
            cases h
            exact absurd rfl hdc
          · rw [List.getElem?_set_ne hu]; exact h
        dsimp only
        split
        · next hlen =>
          refine foreign_step hi hs (fun o ho => ⟨?_, modify_inBounds (hi.own o ho) _ _ _⟩) (fun f h => modify_inBounds (hi.foreign f h) _ _ _)
            (fun f o h ho => hi.apart f o h ho) rfl (fun _ _ h => h) hs.count (by rw [hset 0]; exact hs.origins) rfl hvl
          refine read_congr fun j h3 h4 => modify_place _ _ _ _ _ _ ?_
          rintro ⟨h5, -⟩
          have := (hi.own o ho).1
          have := (hi.foreign l hf).1
          exact hi.apart l o hf ho (by omega) (by omega) h5.symm
        · exact foreign_step hi hs (fun o ho => ⟨rfl, hi.own o ho⟩) hi.foreign hi.apart rfl (fun _ _ h => h) hs.count (by rw [hset 0]; exact hs.origins) rfl hvl
  | append t xs =>
    simp only [AOp.run, valuesStep]
    have hg := horig t
    cases h1 : m.lists[t]? with
    | none =>
      rw [h1] at hg
      cases h2 : v.lists[t]? with
      | some y => rw [h2] at hg; cases hg
      | none => exact ⟨hi, hs⟩
    | some y =>
      obtain ⟨d, l⟩ := y
      rw [h1] at hg
      cases h2 : v.lists[t]? with
      | none => rw [h2] at hg; cases hg
      | some y' =>
        obtain ⟨d', ys⟩ := y'
        rw [h2] at hg
        simp only [Option.map_some, Option.some.injEq] at hg
        subst hg
        have hdc : d ≠ c := fun e => ho ⟨ys, e ▸ h2⟩
        have hf : Foreign c m l := .inr ⟨t, d, hdc, h1⟩
        dsimp only
        have hnew : ∀ (B : List (Nat × Slice)) (u e : Nat) (l' : Slice), (m.lists ++ [(d, (l.append grow .nil m.vals xs).2)])[u]? = some (e, l') →
            m.lists[u]? = some (e, l') ∨ (e = d ∧ l' = (l.append grow .nil m.vals xs).2) := by
          intro _ u e l' h
          by_cases hu : u < m.lists.length
          · rw [List.getElem?_append_left hu] at h
            exact .inl h
          · rw [List.getElem?_append_right (by omega)] at h
            have h2 := List.mem_of_getElem? h
            simp at h2
            exact .inr h2
        have hfor : ∀ f, Foreign c ⟨(l.append grow .nil m.vals xs).1, m.stores, m.lists ++ [(d, (l.append grow .nil m.vals xs).2)]⟩ f →
            Foreign c m f ∨ f = (l.append grow .nil m.vals xs).2 := by
          rintro f (h | ⟨u, e, he, h⟩)
          · exact .inl (.inl h)
          · rcases hnew [] u e f h with h | ⟨-, h⟩
            · exact .inl (.inr ⟨u, e, he, h⟩)
            · exact .inr h
        refine foreign_step hi hs (fun o ho => append_other grow .nil (hi.foreign _ hf) (hi.own o ho) xs fun a b e => absurd e.symm (hi.apart _ o hf ho a b))
          (fun f h => ?_) (fun f o h ho => ?_) rfl (fun u l' h => ?_) hs.count (by simp [hs.origins]) rfl (fun u zs h => ?_)
        · rcases hfor f h with h | rfl
          · exact append_bounds grow .nil (hi.foreign _ hf) (hi.foreign f h) xs
          · exact (append_self grow Val.nil (hi.foreign _ hf) xs).2
        · rcases hfor f h with h | rfl
          · exact hi.apart f o h ho
          · exact append_apart grow .nil (hi.own o ho) xs (hi.apart _ o hf ho)
        · rcases hnew [] u c l' h with h | ⟨h, -⟩
          · exact h
          · exact absurd h.symm hdc
        · show (v.lists ++ _)[u]? = _
          rw [List.getElem?_append_left (List.getElem?_eq_some_iff.1 h).1]
          exact h

theorem taken_same (grow : Nat → Nat) (c : Nat) (os : List AOp) (h : Untouched c os) :
    (slicesAfter grow os).Inv c ∧ SameOn c (slicesAfter grow os) (valuesAfter os) := by
  have gen : ∀ (rest pre : List AOp), os = pre ++ rest → (slicesAfter grow pre).Inv c ∧ SameOn c (slicesAfter grow pre) (valuesAfter pre) →
      (slicesAfter grow os).Inv c ∧ SameOn c (slicesAfter grow os) (valuesAfter os) := by
    intro rest
    induction rest with
    | nil => intro pre he h; rw [he, List.append_nil]; exact h
    | cons o rest ih =>
      intro pre he hp
      refine ih (pre ++ [o]) (by rw [he]; simp) ?_
      have := taken_step grow hp.1 hp.2 o (h pre o rest he)
      simpa [slicesAfter, valuesAfter, List.foldl_append] using this
  refine gen os [] rfl ⟨⟨?_, ?_, ?_, ?_⟩, rfl, rfl, rfl, ?_⟩ <;> simp [slicesAfter, Own, Foreign]

end Sqlf

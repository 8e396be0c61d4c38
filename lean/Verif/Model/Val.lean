import Verif.Model.Syntax
/-!
# Go values used as query arguments, and the argument stores

Model of context_args.go and context.go:29-40.
-/

namespace Sqlf

/-- A Go floating-point value as the code observes it: whether it is a NaN, its value up to
Go's `==` (a handle), and its bits (a handle; `-0` and `0` are `==` but differ in their bits).
`fmt.Sprintf("%f", ·)` of it is `GoLib.formatFloat` of the bits. -/
structure FVal where
  nan : Bool
  val : Int
  bits : Int
deriving DecidableEq, Repr

/-- A Go value stored in an `any` (query argument).  `ty` numbers the dynamic type (so `int(1)`
and `int64(1)` differ); `id` numbers the value up to Go's `==` for values whose inside the
code never looks at.  Typed nil pointers are `nilPtr` (`fastSlice`: of one of the types
`*[]bool` … `*[]string` of util/args.go:47-66), or `nilRecv` if their type is that of a pointer to
a type with a method `String` or `Value`, as `(*time.Time)(nil)` and `(*sql.NullString)(nil)` are:
calling the method panics.  `slice` covers nil slices as the empty list.
`stringer` and `valuer` are values of any type implementing `fmt.Stringer` resp.
`driver.Valuer`; `elems` is their list of elements if their kind is slice or array.  Pointers
whose type has such a method, as `*time.Time` has, are among them (`elems` is then that of what they
point to); `ptr` is any other pointer. -/
inductive Val where
  | nil
  | bool (ty : Nat) (b : Bool)
  | int (ty : Nat) (i : Int)
  | uint (ty : Nat) (n : Nat)
  | float (ty : Nat) (f : FVal)
  | str (ty : Nat) (s : Str)
  | time (id : Nat) (zero : Bool)
  | stringer (id : Nat) (hashable : Bool) (text : Str) (elems : Option (List Val))
  | valuer (id : Nat) (hashable : Bool) (ret : Option Val) (elems : Option (List Val))
  | slice (ty : Nat) (elems : List Val)
  | array (ty : Nat) (elems : List Val)
  | ptr (id : Nat) (target : Val)
  | nilPtr (ty : Nat) (fastSlice : Bool)
  | nilRecv (ty : Nat)
  | other (id : Nat) (hashable : Bool)
deriving Repr

mutual
/-- Structural equality test, for `DecidableEq Val`. -/
def Val.beqS : Val → Val → Bool
  | .nil, .nil => true
  | .bool t b, .bool t' b' => t == t' && b == b'
  | .int t b, .int t' b' => t == t' && b == b'
  | .uint t b, .uint t' b' => t == t' && b == b'
  | .float t b, .float t' b' => t == t' && b == b'
  | .str t b, .str t' b' => t == t' && b == b'
  | .time t b, .time t' b' => t == t' && b == b'
  | .stringer i h t es, .stringer i' h' t' es' => i == i' && h == h' && t == t' && Val.beqOL es es'
  | .valuer i h r es, .valuer i' h' r' es' => i == i' && h == h' && Val.beqO r r' && Val.beqOL es es'
  | .slice t es, .slice t' es' => t == t' && Val.beqL es es'
  | .array t es, .array t' es' => t == t' && Val.beqL es es'
  | .ptr i v, .ptr i' v' => i == i' && Val.beqS v v'
  | .nilPtr t b, .nilPtr t' b' => t == t' && b == b'
  | .nilRecv t, .nilRecv t' => t == t'
  | .other t b, .other t' b' => t == t' && b == b'
  | _, _ => false
def Val.beqL : List Val → List Val → Bool
  | [], [] => true
  | a :: as, b :: bs => Val.beqS a b && Val.beqL as bs
  | _, _ => false
def Val.beqO : Option Val → Option Val → Bool
  | none, none => true
  | some a, some b => Val.beqS a b
  | _, _ => false
def Val.beqOL : Option (List Val) → Option (List Val) → Bool
  | none, none => true
  | some a, some b => Val.beqL a b
  | _, _ => false
end

mutual
theorem Val.beqS_iff : ∀ a b, Val.beqS a b = true ↔ a = b
  | .nil, b => by cases b <;> simp [Val.beqS]
  | .bool _ _, b => by cases b <;> simp [Val.beqS]
  | .int _ _, b => by cases b <;> simp [Val.beqS]
  | .uint _ _, b => by cases b <;> simp [Val.beqS]
  | .float _ _, b => by cases b <;> simp [Val.beqS]
  | .str _ _, b => by cases b <;> simp [Val.beqS]
  | .time _ _, b => by cases b <;> simp [Val.beqS]
  | .stringer _ _ _ es, b => by
    cases b <;> simp [Val.beqS]
    case stringer es' => rw [Val.beqOL_iff es es']; simp [and_assoc]
  | .valuer _ _ r es, b => by
    cases b <;> simp [Val.beqS]
    case valuer r' es' => rw [Val.beqOL_iff es es', Val.beqO_iff r r']; simp [and_assoc]
  | .slice _ es, b => by
    cases b <;> simp [Val.beqS]
    case slice es' => intro _; exact Val.beqL_iff es es'
  | .array _ es, b => by
    cases b <;> simp [Val.beqS]
    case array es' => intro _; exact Val.beqL_iff es es'
  | .ptr _ v, b => by
    cases b <;> simp [Val.beqS]
    case ptr v' => intro _; exact Val.beqS_iff v v'
  | .nilPtr _ _, b => by cases b <;> simp [Val.beqS]
  | .nilRecv _, b => by cases b <;> simp [Val.beqS]
  | .other _ _, b => by cases b <;> simp [Val.beqS]
theorem Val.beqL_iff : ∀ a b, Val.beqL a b = true ↔ a = b
  | [], b => by cases b <;> simp [Val.beqL]
  | a :: as, [] => by simp [Val.beqL]
  | a :: as, b :: bs => by simp [Val.beqL, Val.beqS_iff a b, Val.beqL_iff as bs]
theorem Val.beqO_iff : ∀ a b, Val.beqO a b = true ↔ a = b
  | none, b => by cases b <;> simp [Val.beqO]
  | some a, none => by simp [Val.beqO]
  | some a, some b => by simp [Val.beqO, Val.beqS_iff a b]
theorem Val.beqOL_iff : ∀ a b, Val.beqOL a b = true ↔ a = b
  | none, b => by cases b <;> simp [Val.beqOL]
  | some a, none => by simp [Val.beqOL]
  | some a, some b => by simp [Val.beqOL, Val.beqL_iff a b]
end

instance : DecidableEq Val := fun a b => decidable_of_iff _ (Val.beqS_iff a b)
mutual
/-- Whether the value can be a map key; using an unhashable one as a `map[any]int` key is a
run-time panic ("hash of unhashable type"), Go specification, "Map types". -/
def Val.hashable : Val → Bool
  | .stringer _ h _ _ => h
  | .valuer _ h _ _ => h
  | .slice _ _ => false
  | .array _ es => Val.hashableL es
  | .other _ h => h
  | _ => true
def Val.hashableL : List Val → Bool
  | [] => true
  | v :: vs => Val.hashable v && Val.hashableL vs
end

mutual
/-- Go's `==` on two `any` values (both hashable): same dynamic type and equal values; a NaN is
not equal to itself (Go specification, "Comparison operators"). -/
def Val.goEq : Val → Val → Bool
  | .nil, .nil => true
  | .bool t b, .bool t' b' => t == t' && b == b'
  | .int t i, .int t' i' => t == t' && i == i'
  | .uint t i, .uint t' i' => t == t' && i == i'
  | .float t f, .float t' f' => t == t' && !f.nan && !f'.nan && f.val == f'.val
  | .str t s, .str t' s' => t == t' && s == s'
  | .time i _, .time i' _ => i == i'
  | .stringer i _ _ _, .stringer i' _ _ _ => i == i'
  | .valuer i _ _ _, .valuer i' _ _ _ => i == i'
  | .array t es, .array t' es' => t == t' && Val.goEqL es es'
  | .ptr i _, .ptr i' _ => i == i'
  | .nilPtr t _, .nilPtr t' _ => t == t'
  | .nilRecv t, .nilRecv t' => t == t'
  | .other i _, .other i' _ => i == i'
  | _, _ => false
def Val.goEqL : List Val → List Val → Bool
  | [], [] => true
  | v :: vs, w :: ws => Val.goEq v w && Val.goEqL vs ws
  | _, _ => false
end

/-- The two argument stores (context_args.go:25-65) behind one type: `isDollar` tells which; the
question store does not use `dict`.  `dict` is `map[any]int` as an association list, newest
entry first. -/
structure Store where
  isDollar : Bool
  args : List Val
  dict : List (Val × Nat)
deriving Repr

/-- `newEmptyContext`'s choice of the store (context.go:29-40) with `newDollarArgStore`,
`newQuestionArgStore` (context_args.go:29-31, 47-51): every style other than `Dollar` gets the
question store. -/
def Store.new (style : Style) : Store :=
  { isDollar := style = dollar, args := [], dict := [] }

/-- Map lookup `s.dict[arg]` with Go's `==` (context_args.go:58). -/
def dictLookup (d : List (Val × Nat)) (v : Val) : Option Nat :=
  (d.find? fun p => p.1.goEq v).map (·.2)

/-- `CommitArg` (context_args.go:37-40 and 57-65).  `none` = run-time panic: the map lookup of
an unhashable key. -/
def Store.commit (s : Store) (v : Val) : Option (Str × Store) :=
  if s.isDollar then
    if !v.hashable then none
    else
      match dictLookup s.dict v with
      | some i => some (lit "$" ++ natDigits i, s)
      | none =>
        let i := s.args.length + 1
        some (lit "$" ++ natDigits i, { s with dict := (v, i) :: s.dict, args := s.args ++ [v] })
  else some (lit "?", { s with args := s.args ++ [v] })

end Sqlf

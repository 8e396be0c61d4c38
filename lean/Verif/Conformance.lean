import Verif.Model.Eval
import Verif.KernelRfl
/-!
# The repository's own tests, replayed on the model

These are tests of the model, not proofs of properties.  Each cites the test it replays.  Not replayed: tests that
need a database, the formatting of a time, and `TestContextWithFragment`, which walks over unexported fields.
-/

namespace Sqlf.Conformance

def int (n : Int) : Val := .int 0 n
def str (s : String) : Val := .str 0 (lit s)

/-- `query, args, err := f.BuildQuery(style)` -/
def built (L : GoLib) (f : Fragment) (style : Style) : Out (Str × List Val) := buildQuery L 100 (.frag f) style

def table : Str := lit "table"
def alias : Str := lit "t"
def aliasId : Builder := tableColumn alias (lit "id")

/-! ## fragment_test.go: TestBuildFragment -/

section
variable (L : GoLib)

example : buildQuery L 100 .nilFrag dollar = .ok (lit "", []) := by kernel_rfl

example : built L (.Fa (lit "?,#join('#arg',',')") [int 1, int 2]) question =
    .ok (lit "?,?,?", [int 1, int 1, int 2]) := by kernel_rfl

example : built L (.Fa (lit "$1,#join('#arg',',', 2)") [int 1, int 2, int 3, int 4]) dollar =
    .ok (lit "$1,$2,$3,$4", [int 1, int 2, int 3, int 4]) := by kernel_rfl

example : built L (.Fa (lit "#join('#arg',',')") [int 1, int 1, int 2, int 3]) dollar =
    .ok (lit "$1,$1,$2,$3", [int 1, int 2, int 3]) := by kernel_rfl

example : built L (((Fragment.F (lit "#join('#f1#arg',',')")).withFragments [.frag (.Fa (lit "p") [])]).withArgs [int 1, int 2])
    dollar = .ok (lit "p$1,p$2", [int 1, int 2]) := by kernel_rfl

example : built L ((Fragment.Ff (lit "WHERE 1=1 #f1") []).withFragments [.frag (.F (lit ""))]) dollar =
    .ok (lit "WHERE 1=1", []) := by kernel_rfl

example : built L (((Fragment.F (lit "WHERE #f1=?")).withFragments [aliasId]).withArgs [.nil]) question =
    .ok (lit "WHERE t.id=?", [.nil]) := by kernel_rfl

example : built L (((Fragment.F (lit "WHERE #f1=$1")).withFragments [.nilFrag]).withArgs [.nil]) dollar =
    .ok (lit "WHERE =$1", [.nil]) := by kernel_rfl

example : built L (((Fragment.F (lit "WITH t AS (#f1) SELECT #f2,#f3,$1 FROM #f4 AS #f5")).withArgs [str "foo"]).withFragments
    [.frag (((Fragment.F (lit "SELECT * FROM #f1 AS #f2 WHERE #f3 > $1")).withArgs [int 1]).withFragments
      [.table table, .table alias, aliasId]),
     aliasId,
     .frag (((Fragment.F (lit "#f1.id=$1")).withFragments [.table alias]).withArgs [int 2]),
     .table table, .table alias]) dollar =
    .ok (lit "WITH t AS (SELECT * FROM table AS t WHERE t.id > $1) SELECT t.id,t.id=$2,$3 FROM table AS t",
      [int 1, int 2, str "foo"]) := by kernel_rfl

example : built L ((Fragment.F (lit "SELECT #join('#f', ', ', 3) FROM #f1 AS #f2")).withFragments
    [.table table, .table alias, aliasId,
     .frag (((Fragment.F (lit "#f1.id=$1")).withFragments [.table alias]).withArgs [int 1]),
     tableColumn alias (lit "name")]) dollar =
    .ok (lit "SELECT t.id, t.id=$1, t.name FROM table AS t", [int 1]) := by kernel_rfl

example : built L ((((Fragment.F (lit "#f1")).withPrefix (lit "SELECT")).withSuffix (lit "FOR UPDATE")).withFragments
    [.frag (.F (lit ""))]) dollar = .ok (lit "", []) := by kernel_rfl

example : built L ((((Fragment.F (lit "#f1")).withPrefix (lit "SELECT")).withSuffix (lit "FOR UPDATE")).withFragments
    [.frag (.F (lit "foo"))]) dollar = .ok (lit "SELECT foo FOR UPDATE", []) := by kernel_rfl

example : built L ((Fragment.F (lit "#f1, #f1")).withFragments
    [.frag ((Fragment.F (lit "#join('#arg', ', '), ?")).withArgs [int 1, int 2])]) dollar =
    .ok (lit "$1, $2, $1, $1, $2, $1", [int 1, int 2]) := by kernel_rfl

example : built L ((Fragment.Fa (lit "? #f1") [int 1]).withFragments [.frag (.Fa (lit "$1") [int 2])]) question =
    .ok (lit "? ?", [int 1, int 2]) := by kernel_rfl

example : built L (.Fa (lit "?, $1") [.nil]) dollar = .err (.wrap (lit "?, $1") (.parse .mixedBindvarStyles)) := by kernel_rfl

/-! ## example_test.go -/

/-- `Example_basic`, `Example_deeperLook` -/
example : built L (.Ff (lit "SELECT * FROM foo WHERE #join('#fragment', ' AND ')")
    [.frag (.Fa (lit "baz = $1") [.bool 0 true]), .frag (.Fa (lit "bar BETWEEN ? AND ?") [int 1, int 100])]) dollar =
    .ok (lit "SELECT * FROM foo WHERE baz = $1 AND bar BETWEEN $2 AND $3", [.bool 0 true, int 1, int 100]) := by kernel_rfl

def anon (c : String) : Builder := tableAnonymousColumn (lit "users") (lit c)

/-- `Example_select` -/
example : built L (.Ff (lit "#join('#fragment', ' ')")
    [.frag (.Ff (lit "SELECT #join('#fragment', ', ')") [anon "id", anon "name", anon "email"]),
     .frag (.Ff (lit "FROM #f1") [.table (lit "users")]),
     .frag (((Fragment.Ff (lit "#join('#fragment', ' AND ')")
        [.frag (((Fragment.F (lit "#f1 IN (#join('#arg', ', '))")).withFragments [anon "id"]).withArgs [int 1, int 2, int 3])]).withPrefix
          (lit "WHERE")).appendFragments
        [.frag (((Fragment.F (lit "#f1 = $1")).withFragments [anon "active"]).withArgs [.bool 0 true])])]) dollar =
    .ok (lit "SELECT id, name, email FROM users WHERE id IN ($1, $2, $3) AND active = $4",
      [int 1, int 2, int 3, .bool 0 true]) := by kernel_rfl

/-- `Example_update` -/
example : built L (.Ff (lit "#join('#fragment', ' ')")
    [.frag ((Fragment.Fa (lit "UPDATE #f1") []).withFragments [.table (lit "users")]),
     .frag (((Fragment.Fa (lit "SET #join('#fragment=#arg', ', ')") []).withFragments [anon "name", anon "email"]).withArgs
        [str "alice", str "alice@example.org"]),
     .frag (((Fragment.Fa (lit "#join('#fragment', ' AND ')") []).withPrefix (lit "WHERE")).appendFragments
        [.frag (((Fragment.F (lit "#f1=$1")).withFragments [anon "id"]).withArgs [int 1])])]) dollar =
    .ok (lit "UPDATE users SET name=$1, email=$2 WHERE id=$3", [str "alice", str "alice@example.org", int 1]) := by
  kernel_rfl

/-- `ExampleContextWithFuncs`: `ids.Build(ctx, i)` -/
def idsBuild : List ArgVal → Prog
  | [.num _ (.int i)] => if 1 ≤ i ∧ i ≤ 3 then .commit (int i) .ret else .fail (.invalidIndex i)
  | _ => .fail (.invalidIndex 0)

example : buildQuery L 100 (.custom (.buildWith
    [(lit "_id", .func [.context, .num .int 0] false [.string 0, .error] (.custom idsBuild))]
    (.frag (.Ff (lit "#join('#fragment', '\nUNION\n')")
      [.frag (.Fa (lit "SELECT id, 'foo' typ, count FROM foo WHERE id IN (#join('#_id', ', '))") []),
       .frag (.Fa (lit "SELECT id, 'bar' typ, count FROM bar WHERE id IN (#join('#_id', ', '))") [])]))
    fun | .ok t => .ret t | .error e => .fail e)) dollar =
    .ok (lit ("SELECT id, 'foo' typ, count FROM foo WHERE id IN ($1, $2, $3)\nUNION\n" ++
      "SELECT id, 'bar' typ, count FROM bar WHERE id IN ($1, $2, $3)"), [int 1, int 2, int 3]) := by kernel_rfl

/-! ## sqlb -/

def foo : TableAliased := ⟨lit "foo", lit "f"⟩
def bar : TableAliased := ⟨lit "bar", lit "b"⟩
def cte : TableAliased := ⟨lit "bar_type_1", lit "b1"⟩
def users : TableAliased := ⟨lit "users", lit "u"⟩

def on (a b : Builder) : Option Fragment := some (.Ff (lit "#f1=#f2") [a, b])

def orNew : Out QB → QB
  | .ok b => b
  | _ => .new

/-- `ExampleQueryBuilder_BuildQuery` -/
def q1 : QB :=
  ((orNew (((QB.new.select [foo.column (lit "*")]).from_ foo).innerJoin bar
    (on (bar.column (lit "foo_id")) (foo.column (lit "id"))))).where_
    (some (((Fragment.F (lit "(#f1=$1 OR #f2=$1)")).withFragments [foo.column (lit "a"), foo.column (lit "b")]).withArgs [int 1]))).where2
    (bar.column (lit "c")) (lit "=") (int 2)

example : buildQuery L 100 (.qb 0) dollar [q1] = .ok (lit ("SELECT f.* FROM foo AS f INNER JOIN bar AS b ON b.foo_id=f.id " ++
    "WHERE (f.a=$1 OR f.b=$1) AND b.c=$2"), [int 1, int 2]) := by kernel_rfl

example : buildQuery L 100 (.qb 0) question (buildQueryS L 100 (.qb 0) dollar [q1]).2.heap =
    .ok (lit ("SELECT f.* FROM foo AS f INNER JOIN bar AS b ON b.foo_id=f.id " ++
    "WHERE (f.a=? OR f.b=?) AND b.c=?"), [int 1, int 1, int 2]) := by kernel_rfl

/-- `ExampleQueryBuilder_LeftJoinOptional` -/
def q2 : QB :=
  (orNew (((QB.new.setDistinct.select [foo.column (lit "*")]).from_ foo).leftJoinOptional bar
    (on (bar.column (lit "foo_id")) (foo.column (lit "id"))))).where2 (foo.column (lit "id")) (lit ">") (int 1)

example : buildQuery L 100 (.qb 0) dollar [q2] =
    .ok (lit "SELECT DISTINCT f.* FROM foo AS f WHERE f.id>$1", [int 1]) := by kernel_rfl

/-- `ExampleQueryBuilder_With` -/
def q3 : QB :=
  orNew ((((QB.new.with_ cte.name
    (.frag (((Fragment.F (lit "SELECT * FROM #f1 AS #f2 WHERE #f3=$1")).withFragments
      [.table bar.name, .table bar.alias, bar.column (lit "type")]).withArgs [int 1])) []).select
    [foo.column (lit "*"), cte.column (lit "*")]).from_ foo).leftJoinOptional cte
    (on (cte.column (lit "foo_id")) (foo.column (lit "id"))))

example : buildQuery L 100 (.qb 0) dollar [q3] =
    .ok (lit ("With bar_type_1 AS (SELECT * FROM bar AS b WHERE b.type=$1) SELECT f.*, b1.* FROM foo AS f " ++
      "LEFT JOIN bar_type_1 AS b1 ON b1.foo_id=f.id"), [int 1]) := by kernel_rfl

/-- `ExampleQueryBuilder_Union` -/
def q4 : QB :=
  (((QB.new.select [foo.column (lit "*")]).from_ foo).where2 (foo.column (lit "id")) (lit " = ") (int 1)).union [.qb 1]
def q4' : QB :=
  (orNew ((QB.new.from_ foo).whereIn (foo.column (lit "id")) (.slice 9 [int 2, int 3, int 4]))).select [foo.column (lit "*")]

example : buildQuery L 100 (.qb 0) dollar [q4, q4'] =
    .ok (lit "SELECT f.* FROM foo AS f WHERE f.id = $1 UNION (SELECT f.* FROM foo AS f WHERE f.id IN ($2, $3, $4))",
      [int 1, int 2, int 3, int 4]) := by kernel_rfl

/-- `TestQueryBuilder` -/
def q5 : QB :=
  let q := (QB.new.setDistinct.with_ users.name (.frag (.Fa (lit "SELECT * FROM users WHERE type=$1") [str "user"])) []).with_
    (lit "xxx") (.frag (.F (lit "SELECT 1 AS whatever"))) []
  let q := (q.select [foo.column (lit "id"), foo.column (lit "name")]).from_ users
  let q := orNew (q.leftJoinOptional foo (on (foo.column (lit "user_id")) (users.column (lit "id"))))
  let q := orNew (q.leftJoinOptional bar (on (bar.column (lit "user_id")) (users.column (lit "id"))))
  (q.where2 (users.column (lit "id")) (lit "=") (int 1)).union [.qb 1]
def q5' : QB :=
  ((QB.new.select [foo.column (lit "id"), foo.column (lit "name")]).from_ foo).where_
    (some (((Fragment.F (lit "#f1>$1 AND #f1<$2")).withFragments [foo.column (lit "id")]).withArgs [int 10, int 20]))

example : buildQuery L 100 (.qb 0) dollar [q5, q5'] =
    .ok (lit ("With users AS (SELECT * FROM users WHERE type=$1) SELECT DISTINCT f.id, f.name FROM users AS u " ++
      "LEFT JOIN foo AS f ON f.user_id=u.id WHERE u.id=$2 UNION (SELECT f.id, f.name FROM foo AS f WHERE f.id>$3 AND f.id<$4)"),
      [str "user", int 1, int 10, int 20]) := by kernel_rfl

/-! ## syntax: TestParser (the test does not look at the outcome where it wants an error), TestScanner -/

example : parse L (lit "?,?,?") = .ok [.bindVar question 1, .plain (lit ","), .bindVar question 2, .plain (lit ","),
    .bindVar question 3] := by kernel_rfl
example : parse L (lit "$1'#c11#t111#fragment1111'") = .ok [.bindVar dollar 1, .plain (lit "'#c11#t111#fragment1111'")] := by
  kernel_rfl
example : parse L (lit "#join('#c=#argDollar', ',')") =
    .ok [.call (lit "join") [.str (lit "#c=#argDollar"), .str (lit ",")]] := by kernel_rfl
example : parse L (lit "#c1#t1#fragment1") = .ok [.call (lit "c") [.num (.nat 1)], .call (lit "t") [.num (.nat 1)],
    .call (lit "fragment") [.num (.nat 1)]] := by kernel_rfl

def tok (t : TokType) (s : String) : Token := ⟨t, .string, false, lit s⟩
def num (s : String) : Token := ⟨.literal, .number, false, lit s⟩

example : scanAll L (lit "$1,$2") = some [tok .ref "$", num "1", tok .plain ",", tok .ref "$", num "2", tok .eof ""] := by
  kernel_rfl
example : scanAll L (lit "a IN (?,?)") = some [tok .plain "a IN (", tok .ref "?", tok .plain ",", tok .ref "?", tok .plain ")",
    tok .eof ""] := by kernel_rfl
example : scanAll L (lit "'a''b'") = some [tok .plain "'a''b'", tok .eof ""] := by kernel_rfl
example : scanAll L (lit "'a''b") = some [{ tok .plain "'a''b" with bad := true }, tok .eof ""] := by kernel_rfl
example : scanAll L (lit "$$1") = some [tok .plain "$$1", tok .eof ""] := by kernel_rfl
example : scanAll L (lit "#a(1,2)aaaa") = some [tok .hash "#", tok .name "a", tok .lparen "(", num "1", tok .comma ",", num "2",
    tok .rparen ")", tok .plain "aaaa", tok .eof ""] := by kernel_rfl
example : scanAll L (lit "#a11aaaa") = some [tok .hash "#", tok .name "a", num "11", tok .plain "aaaa", tok .eof ""] := by
  kernel_rfl

/-! ## util: TestArgsFlatted, ExampleArgs -/

example : argsFlatted [int 1] = .ok [int 1] := by kernel_rfl
example : argsFlatted [.slice 1 [int 1, int 2, int 3]] = .ok [int 1, int 2, int 3] := by kernel_rfl
example : argsFlatted [.slice 1 [int 1, int 2], .slice 1 [], .slice 1 [int 3]] = .ok [int 1, int 2, int 3] := by kernel_rfl
example : argsFlatted [int 0, .slice 1 [int 1, int 2, int 3], .slice 2 [str "a", str "b", str "c"]] =
    .ok [int 0, int 1, int 2, int 3, str "a", str "b", str "c"] := by kernel_rfl

end

end Sqlf.Conformance

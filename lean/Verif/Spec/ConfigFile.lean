import Verif.Model.ConfigFile

/-!
What a configuration file says.
-/

namespace TreeCorr
namespace Config

/-- A line that says nothing: empty, or a comment. -/
def Blank (v : Str) : Prop := strip v = [] ∨ ∃ s, strip v = '#' :: s

/-- A line that names a file to include. -/
def Includes (v name : Str) : Prop := strip v = '+' :: name

/-- A line with an assignment. -/
def Assigns (v k : Str) (e : Entry) : Prop := ¬ Blank v ∧ (∀ name, ¬ Includes v name) ∧ parseVariable (strip v) = .ok (k, e)

mutual
/-- The assignments of the file called `name` in their order, with included files in the place where they are included. -/
inductive Says (F : Files) : FType → Str → List (Str × Entry) → Prop
  | yaml {t name d} (h : t.of name = .ok .yaml) (hd : F.yaml name = some d) : Says F t name d
  | json {t name d} (h : t.of name = .ok .json) (hd : F.json name = some d) : Says F t name d
  | params {t name ls as} (h : t.of name = .ok .params) (hl : F.lines name = some ls) (ha : LinesSay F ls as) : Says F t name as

/-- The assignments of some lines. -/
inductive LinesSay (F : Files) : List Str → List (Str × Entry) → Prop
  | nil : LinesSay F [] []
  | blank {v ls as} (h : Blank v) (ha : LinesSay F ls as) : LinesSay F (v :: ls) as
  | incl {v name bs ls as} (h : Includes v name) (hb : Says F .auto name bs) (ha : LinesSay F ls as) : LinesSay F (v :: ls) (bs ++ as)
  | assign {v k e ls as} (h : Assigns v k e) (ha : LinesSay F ls as) : LinesSay F (v :: ls) ((k, e) :: as)
end

/-- The last value given to `k`. -/
def lastValue (as : List (Str × Entry)) (k : Str) : Option Entry := as.reverse.lookup k

end Config
end TreeCorr

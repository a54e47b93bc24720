import Verif.Transforms
/-!
# The configuration flag `use_cext` (spherepy/spherepy.py 67-69, spherepy/pkg_info.json)

`pkg_info.json` is read once at import time and the value stored under `"use_cext"` becomes the module variable
`use_cext`, which the transforms test with `if use_cext:` (spherepy.py 1895, 1945, 2068, 2113).  Nothing converts the
value: it is whatever JSON value the file contains.
-/
namespace Verif

/-- The values `json.load` can return (the file pkg_info.json).  Runtime model: a JSON number without fraction or
exponent is a Python `int`, any other a `float`; `Infinity`, `-Infinity` and `NaN` are accepted by Python's reader. -/
inductive PyJson where
  | null
  | bool (b : Bool)
  | int (i : Int)
  | float (q : Rat)
  | nonfinite
  | str (s : String)
  | arr (l : List PyJson)
  | obj (l : List (String × PyJson))

/-- Python truth value of a value returned by `json.load`, as tested by `if use_cext:` (spherepy.py 1895, 1945, 2068,
2113): `None`, `False`, zero and empty strings, lists and dicts are false, everything else is true. -/
def PyJson.truthy : PyJson → Bool
  | .null => false
  | .bool b => b
  | .int i => decide (i ≠ 0)
  | .float q => decide (q ≠ 0)
  | .nonfinite => true
  | .str s => decide (s ≠ "")
  | .arr l => !l.isEmpty
  | .obj l => !l.isEmpty

/-- `d[key]` on the dictionary made from a JSON object: the last of several equal keys wins, a missing key raises
`KeyError`, which stops the import (spherepy.py 69: `_info["use_cext"]`).  Indexing something that is not a dictionary
with a string raises `TypeError`. -/
def PyJson.getKey (v : PyJson) (key : String) : Res PyJson :=
  match v with
  | .obj l =>
    match (l.reverse.find? fun p : String × PyJson => p.1 == key) with
    | some p => .ok p.2
    | none => .error ⟨.exception, "KeyError"⟩
  | _ => .error ⟨.typeError, "subscript"⟩

/-- `use_cext` and the backend the transforms use, for the parsed content of pkg_info.json: spherepy.py 67-69 and the
tests `if use_cext:` at 1895, 1945, 2068, 2113. -/
def backendOf (info : PyJson) (J : Nat → CJunk) : Res Backend :=
  (info.getKey "use_cext").bind fun v =>
  .ok (if v.truthy then .c J else .py)

/-- The content of the shipped file spherepy/pkg_info.json, lines 1-6. -/
def shippedInfo : PyJson :=
  .obj [("version", .str "0.0.10"),
        ("download_url", .str "https://github.com/rdireen/spherepy/tarball/0.0.10"),
        ("author", .str "Randy Direen"),
        ("email", .str "spherepy@direentech.com"),
        ("use_cext", .str "True")]

/-- `info` with the entry `use_cext` replaced by `v` (a user editing line 5 of spherepy/pkg_info.json).
    spherepy/pkg_info.json line 5. -/
def editedInfo (v : PyJson) : PyJson :=
  .obj [("version", .str "0.0.10"),
        ("download_url", .str "https://github.com/rdireen/spherepy/tarball/0.0.10"),
        ("author", .str "Randy Direen"),
        ("email", .str "spherepy@direentech.com"),
        ("use_cext", v)]

end Verif

import Verif.Model.Parser
/-!
# Model.ParserMore — the remaining methods of `/repo/parse_get.go`, `/repo/parse_add.go`,
`/repo/parse_utils.go`
-/

namespace Jin

/-- `Parser.JSON`, parse_get.go:6-8. -/
def Parser.JSON (p : Parser) : Bytes := p.json

/-- `Parser.GetString`, parse_get.go:50-56. -/
def Parser.GetString (p : Parser) (path : List Bytes) : Out Bytes := p.Get path

/-- `Parser.GetFloatArray`, parse_get.go:196-257; the loop is that of inter_get.go:185-228. -/
def Parser.GetFloatArray {F : Type} (fl : FloatLib F) (p : Parser) (path : List Bytes) : Out (List F) := do
  let val ← p.GetString path
  if val.length < 2 then .err (.floatArrayParse val)
  else if bracketed val then splitArray (convFloat fl) (convFloat fl) val
  else .err (.floatArrayParse val)

/-- `Parser.GetBoolArray`, parse_get.go:262-333; the loop is that of inter_get.go:251-304. -/
def Parser.GetBoolArray (p : Parser) (path : List Bytes) : Out (List Bool) := do
  let val ← p.GetString path
  if val.length < 2 then .err (.boolArrayParse val)
  else if bracketed val then splitArray convBool convBoolLast val
  else .err (.boolArrayParse val)

/-- `Parser.AddKeyValueString`, parse_add.go:343-348. -/
def Parser.AddKeyValueString (isFloat : Bytes → Bool) (p : Parser) (key value : Bytes) (path : List Bytes) : PRes :=
  if key.length == 0 then .done p (some .nullKey) else p.AddKeyValue key (formatType isFloat value) path
/-- `Parser.AddKeyValueInt`, parse_add.go:352-357. -/
def Parser.AddKeyValueInt (p : Parser) (key : Bytes) (n : Int) (path : List Bytes) : PRes :=
  if key.length == 0 then .done p (some .nullKey) else p.AddKeyValue key (itoa n) path
/-- `Parser.AddKeyValueFloat`, parse_add.go:361-366. -/
def Parser.AddKeyValueFloat {F : Type} (fl : FloatLib F) (p : Parser) (key : Bytes) (x : F) (path : List Bytes) : PRes :=
  if key.length == 0 then .done p (some .nullKey) else p.AddKeyValue key (fl.format x) path
/-- `Parser.AddKeyValueBool`, parse_add.go:370-378. -/
def Parser.AddKeyValueBool (p : Parser) (key : Bytes) (b : Bool) (path : List Bytes) : PRes :=
  if key.length == 0 then .done p (some .nullKey) else p.AddKeyValue key (boolText b) path

/-- `Parser.AddString`, parse_add.go:382-384. -/
def Parser.AddString (isFloat : Bytes → Bool) (p : Parser) (value : Bytes) (path : List Bytes) : PRes :=
  p.Add (formatType isFloat value) path
/-- `Parser.AddInt`, parse_add.go:388-390. -/
def Parser.AddInt (p : Parser) (n : Int) (path : List Bytes) : PRes := p.Add (itoa n) path
/-- `Parser.AddFloat`, parse_add.go:394-396. -/
def Parser.AddFloat {F : Type} (fl : FloatLib F) (p : Parser) (x : F) (path : List Bytes) : PRes := p.Add (fl.format x) path
/-- `Parser.AddBool`, parse_add.go:400-405. -/
def Parser.AddBool (p : Parser) (b : Bool) (path : List Bytes) : PRes := p.Add (boolText b) path

/-- `Parser.InsertString`, parse_add.go:409-414. -/
def Parser.InsertString (isFloat : Bytes → Bool) (p : Parser) (index : Int) (value : Bytes) (path : List Bytes) : PRes :=
  if index < 0 then .done p (some .indexOutOfRange) else p.Insert index (formatType isFloat value) path
/-- `Parser.InsertInt`, parse_add.go:418-423. -/
def Parser.InsertInt (p : Parser) (index n : Int) (path : List Bytes) : PRes :=
  if index < 0 then .done p (some .indexOutOfRange) else p.Insert index (itoa n) path
/-- `Parser.InsertFloat`, parse_add.go:427-432. -/
def Parser.InsertFloat {F : Type} (fl : FloatLib F) (p : Parser) (index : Int) (x : F) (path : List Bytes) : PRes :=
  if index < 0 then .done p (some .indexOutOfRange) else p.Insert index (fl.format x) path
/-- `Parser.InsertBool`, parse_add.go:436-444. -/
def Parser.InsertBool (p : Parser) (index : Int) (b : Bool) (path : List Bytes) : PRes :=
  if index < 0 then .done p (some .indexOutOfRange) else p.Insert index (boolText b) path

/-! ### Tree, TreeFull

`pad` is the text that `fmt` puts after a label to fill six columns (`%-6v`; it counts runes). -/

/-- `string(rune(9472))`, "─" in UTF-8. -/
def dashRune : Bytes := [226, 148, 128]
/-- `string(rune(9492))`, "└" in UTF-8. -/
def hookRune : Bytes := [226, 148, 148]

/-- The line for one node, parse_utils.go:151-168. -/
def treeLine (pad : Bytes → Bytes) (depth : Nat) (withValues : Bool) (label value : Bytes) : Bytes :=
  let tab : Bytes := List.replicate (depth - 1) 9
  let head := if depth != 0 then 9 :: (tab ++ hookRune ++ [32]) ++ [32] else tab ++ dashRune ++ [32]
  if withValues then head ++ label ++ pad label ++ [32, 58, 32] ++ value ++ [10]
  else head ++ label ++ [10]

mutual
/-- `node.createTree`, parse_utils.go:149-173: the text appended to `*str`. -/
def Node.createTree (pad : Bytes → Bytes) (depth : Nat) (withValues : Bool) : Node → Bytes
  | .mk _ _ down => createTrees pad depth withValues down
/-- The loop parse_utils.go:150-172. -/
def createTrees (pad : Bytes → Bytes) (depth : Nat) (withValues : Bool) : List Node → Bytes
  | [] => []
  | .mk label value down :: ds =>
    treeLine pad depth withValues label value ++
      ((if down.length > 0 then Node.createTree pad (depth + 1) withValues (.mk label value down) else []) ++
        createTrees pad depth withValues ds)
end

/-- `Parser.Tree`, parse_utils.go:136-140 (`pad` is not used). -/
def Parser.Tree (p : Parser) : Bytes := p.core.createTree (fun _ => []) 0 false
/-- `Parser.TreeFull`, parse_utils.go:143-147. -/
def Parser.TreeFull (pad : Bytes → Bytes) (p : Parser) : Bytes := p.core.createTree pad 0 true

end Jin

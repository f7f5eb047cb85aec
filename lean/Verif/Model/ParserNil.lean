import Verif.Model.Parser
import Verif.Model.ParserPtr
/-!
# Model.ParserNil — `Parser.AddKeyValue` with a nil value

`newVal[0]` of a nil slice panics, `string(newVal)` is empty, a node may hold a nil value, and `AddKeyValue` of inter_add.go:9-11 puts `null` for it.  A nil value
in a node is `[]` here: no function of the package tells them apart.
-/

namespace Jin

/-- `Parser.AddKeyValue`, parse_add.go:10-114, with `newVal == nil`. -/
def Parser.AddKeyValueNil (p : Parser) (key : Bytes) (path : List Bytes) : PRes :=
  if key.length == 0 then .done p (some .nullKey)
  else match p.Get path with
    | .panic => .panic
    | .err e => .done p (some e)
    | .ok json =>
      if path.length == 0 then
        if p.core.down.any (fun d => d.label == key) then .done p (some (.keyAlreadyExist key))
        else match enclosed json 123 125 .objectExpected with
          | some e => .done p (some e)
          | none =>
            if key.length ≥ 2 then .panic                                       -- newVal[0], :32
            else match beforeLast p.json (44 :: memberText key []) with
              | .ok json' => .done ⟨p.core.addChild (.mk key [] []), json'⟩ none
              | _ => .panic
      else match p.core.walk path.dropLast with
        | .ok up =>
          if up.down.any (fun d => d.label == key) then .done p (some (.keyAlreadyExist key))
          else match enclosed json 123 125 .objectExpected with
            | some e => .done p (some e)
            | none =>
              if key.length ≥ 2 then .panic                                     -- newVal[0], :74
              else
                let core := p.core.updAt (·.addChild (.mk key [] [])) path
                match Jin.AddKeyValue p.json key none path with
                | .panic => .panic
                | .done json' (some e) => .done ⟨core, json'⟩ (some e)
                | .done json' none => finish json' core (prefixes path 1 path.length)
        | _ => .panic

/-- The same with nodes in memory (`Model/ParserPtr`). -/
def ParserP.AddKeyValueNil (h : NHeap) (p : ParserP) (key : Bytes) (path : List Bytes) : PResP :=
  if key.length == 0 then .done p h (some .nullKey)
  else match p.Get h path with
    | .panic => .panic
    | .err e => .done p h (some e)
    | .ok json =>
      if path.length == 0 then
        match h[p.core]? with
        | none => .panic
        | some r =>
          if (h.child? key r.down).isSome then .done p h (some (.keyAlreadyExist key))
          else match enclosed json 123 125 .objectExpected with
            | some e => .done p h (some e)
            | none =>
              if key.length ≥ 2 then .panic
              else match newNodeP h false key [] with
                | none => .panic
                | some (h, q) =>
                  match beforeLast p.json (44 :: memberText key []) with
                  | .ok json' => .done { p with json := json' } (h.attach p.core q) none
                  | _ => .panic
      else match h.walk p.core path with
        | .panic => .panic
        | .err e => .done p h (some e)
        | .ok curr =>
          match (h[curr]?.bind NodeRec.up).bind (h[·]?) with
          | none => .panic
          | some u =>
            if (h.child? key u.down).isSome then .done p h (some (.keyAlreadyExist key))
            else match enclosed json 123 125 .objectExpected with
              | some e => .done p h (some e)
              | none =>
                if key.length ≥ 2 then .panic
                else match newNodeP h false key [] with
                  | none => .panic
                  | some (h, q) =>
                    let h := h.attach curr q
                    match Jin.AddKeyValue p.json key none path with
                    | .panic => .panic
                    | .done json' (some e) => .done { p with json := json' } h (some e)
                    | .done json' none => finishP p json' (prefixes path 1 path.length) q h

end Jin

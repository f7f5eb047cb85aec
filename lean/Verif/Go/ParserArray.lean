import Verif.Go.ParserTyped
import Verif.Go.Array
/-!
# Go.ParserArray — the text of the typed getters of `Parser`, parse_get.go:50-333
-/

namespace Jin.Go

variable {fl : FloatLib UInt64} {fuel d : Nat}

/-- What a typed getter of a parser returns. -/
def readVals (h : NHeap) (p : ParserP) (dflt : Val) : Out Val → R (List Val)
  | .ok v => .ok [.heap h, .ptr p.core, .bytes p.json, v, .nil]
  | .err e => .ok [.heap h, .ptr p.core, .bytes p.json, dflt, .err e]
  | .panic => .panic

/-- How a typed getter of a parser leaves a loop. -/
def readRes {α : Type} (h : NHeap) (p : ParserP) (mk : α → Val) : Out α → Res Unit
  | .ok v => .ret () [.heap h, .ptr p.core, .bytes p.json, mk v, .nil]
  | .err e => .ret () [.heap h, .ptr p.core, .bytes p.json, .nil, .err e]
  | .panic => .panic

theorem Parser_GetIntArray_for1 (val : Bytes) (hf : val.length < fuel) (n : Int) (h : NHeap) (p : ParserP) (path : List Bytes) :
    exec (ctx fl fuel (d + 2)) fuel Src.Parser.GetIntArray.for1 ⟨(), (go% level, .int 0) :: (go% inQuote, .bool false) :: (go% start, .int 1) :: (go% newArray, .ints []) :: (0, .nil) :: (go% lena, .int n) :: (go% err, .nil) :: (go% val, .bytes val) :: (go% «%2», .nil) :: (go% «%1», .bytes val) :: (0, .nil) :: (go% heap, .heap h) :: (go% p.core, .ptr p.core) :: (go% p.json, .bytes p.json) :: [(go% path, .strs path)]⟩ =
    after (fun s : SplitSt Int => ⟨(), ((go% level, .int s.level) :: (go% inQuote, .bool s.inQuote) :: (go% start, .int s.start) :: (go% newArray, .ints s.acc) :: (0, .nil) :: (go% lena, .int n) :: (go% err, .nil) :: (go% val, .bytes val) :: (go% «%2», .nil) :: (go% «%1», .bytes val) :: (0, .nil) :: (go% heap, .heap h) :: (go% p.core, .ptr p.core) :: (go% p.json, .bytes p.json) :: [(go% path, .strs path)])⟩) (readRes h p .ints)
      (forUp val.length (splitBody convInt convInt val) 0 ⟨1, false, 0, []⟩) := by
  run_go [Src.Parser.GetIntArray.for1]
  have hends : ∀ m : Out (List Int), (((readRes h p .ints) : Out (List Int) → Res Unit) m).ends = true := fun m => by cases m <;> rfl
  refine (loop_forUp (hi := val.length) (b := splitBody convInt convInt val) (fun i (s : SplitSt Int) => ⟨(), ((go% i, .int i) :: (0, .nil) :: (go% level, .int s.level) :: (go% inQuote, .bool s.inQuote) :: (go% start, .int s.start) :: (go% newArray, .ints s.acc) :: (0, .nil) :: (go% lena, .int n) :: (go% err, .nil) :: (go% val, .bytes val) :: (go% «%2», .nil) :: (go% «%1», .bytes val) :: (0, .nil) :: (go% heap, .heap h) :: (go% p.core, .ptr p.core) :: (go% p.json, .bytes p.json) :: [(go% path, .strs path)])⟩) (readRes h p .ints)
      (fun _ _ => True) (fun _ => True) ?_ ?_ hends (fun _ _ _ => trivial) ?_ fuel 0 ⟨1, false, 0, []⟩ trivial (by omega)).leave _ ?_ hends
  · intro i s; run_go []
  · intro i s; run_go []; rfl
  · intro i s hi _
    obtain ⟨c, hc⟩ := getElem?_of_lt hi
    obtain ⟨st, q, lv, acc⟩ := s
    have hm : max i (i + 1) = i + 1 := by omega
    rcases arrayByte c with h1 | ⟨h2, h1⟩ | ⟨⟨h1, h2⟩, h0⟩
    · run_go [splitBody, Src.Parser.GetIntArray.body1, hc, h1, Sim, Res.goes, hm]; rfl
    · run_go [splitBody, Src.Parser.GetIntArray.body1, hc, h1, h2, Sim, Res.goes]
    cases q
    rotate_left
    · run_go [splitBody, Src.Parser.GetIntArray.body1, hc, h1, h2, Sim, Res.goes]
    rcases h0 with ⟨h3, h4, h5, h6, h7⟩ | ⟨h3, h4, h5, h6, h7⟩ | ⟨h3, h4, h5, h6, h7⟩ | ⟨h3, h4, h5, h6, h7⟩ | ⟨h3, h4, h5, h6, h7⟩ | ⟨h3, h4, h5, h6, h7⟩
    · cases h8 : lv + 1 == 1 <;> cases h9 : lv + 1 == 0 <;> run_go [splitBody, Src.Parser.GetIntArray.body1, hc, h1, h2, h3, h4, h5, h6, h7, h8, h9, Sim, Res.goes]
    · cases h8 : lv + 1 == 1 <;> cases h9 : lv + 1 == 0 <;> run_go [splitBody, Src.Parser.GetIntArray.body1, hc, h1, h2, h3, h4, h5, h6, h7, h8, h9, Sim, Res.goes]
    · cases h9 : lv - 1 == 0
      · cases h8 : lv - 1 == 1 <;> run_go [splitBody, Src.Parser.GetIntArray.body1, hc, h1, h2, h3, h4, h5, h6, h7, h8, h9, Sim, Res.goes]
      · rcases slice_cases val st i with ⟨b, h10⟩ | h10
        rotate_left
        · run_go [splitBody, Src.Parser.GetIntArray.body1, hc, h1, h2, h3, h4, h5, h6, h7, h9, h10, readRes, Sim, Res.goes]
        have hb : b.length < fuel := Nat.lt_of_le_of_lt (slice_length h10) hf
        rcases clean_cases b with ⟨v, h11⟩ | h11
        rotate_left
        · run_go [splitBody, Src.Parser.GetIntArray.body1, hc, h1, h2, h3, h4, h5, h6, h7, h9, h10, run_cleanValueString b hb, h11, convInt, readRes, Sim, Res.goes]
        cases h12 : atoi v <;> run_go [splitBody, Src.Parser.GetIntArray.body1, hc, h1, h2, h3, h4, h5, h6, h7, h10, run_cleanValueString b hb, h11, h9, convInt, h12, orErr, Option.map_some, Option.map_none, readRes, Sim, Res.goes, true_and]
    · cases h8 : lv - 1 == 1 <;> cases h9 : lv - 1 == 0 <;> run_go [splitBody, Src.Parser.GetIntArray.body1, hc, h1, h2, h3, h4, h5, h6, h7, h8, h9, Sim, Res.goes]
    · cases h8 : lv == 1
      · run_go [splitBody, Src.Parser.GetIntArray.body1, hc, h1, h2, h3, h4, h5, h6, h7, h8, Sim, Res.goes]
      · rcases slice_cases val st i with ⟨b, h10⟩ | h10
        rotate_left
        · run_go [splitBody, Src.Parser.GetIntArray.body1, hc, h1, h2, h3, h4, h5, h6, h7, h8, h10, readRes, Sim, Res.goes]
        have hb : b.length < fuel := Nat.lt_of_le_of_lt (slice_length h10) hf
        rcases clean_cases b with ⟨v, h11⟩ | h11
        rotate_left
        · run_go [splitBody, Src.Parser.GetIntArray.body1, hc, h1, h2, h3, h4, h5, h6, h7, h8, h10, run_cleanValueString b hb, h11, convInt, readRes, Sim, Res.goes]
        cases h12 : atoi v <;> run_go [splitBody, Src.Parser.GetIntArray.body1, hc, h1, h2, h3, h4, h5, h6, h7, h10, run_cleanValueString b hb, h11, h8, convInt, h12, orErr, Option.map_some, Option.map_none, readRes, Sim, Res.goes, Int.natCast_succ]
    · cases h8 : lv == 1 <;> run_go [splitBody, Src.Parser.GetIntArray.body1, hc, h1, h2, h3, h4, h5, h6, h7, h8, Sim, Res.goes]
  · intro i s; rfl

theorem Parser_GetFloatArray_for1 (val : Bytes) (hf : val.length < fuel) (n : Int) (h : NHeap) (p : ParserP) (path : List Bytes) :
    exec (ctx fl fuel (d + 2)) fuel Src.Parser.GetFloatArray.for1 ⟨(), (go% level, .int 0) :: (go% inQuote, .bool false) :: (go% start, .int 1) :: (go% newArray, .floats []) :: (0, .nil) :: (go% lena, .int n) :: (go% err, .nil) :: (go% val, .bytes val) :: (go% «%2», .nil) :: (go% «%1», .bytes val) :: (0, .nil) :: (go% heap, .heap h) :: (go% p.core, .ptr p.core) :: (go% p.json, .bytes p.json) :: [(go% path, .strs path)]⟩ =
    after (fun s : SplitSt UInt64 => ⟨(), ((go% level, .int s.level) :: (go% inQuote, .bool s.inQuote) :: (go% start, .int s.start) :: (go% newArray, .floats s.acc) :: (0, .nil) :: (go% lena, .int n) :: (go% err, .nil) :: (go% val, .bytes val) :: (go% «%2», .nil) :: (go% «%1», .bytes val) :: (0, .nil) :: (go% heap, .heap h) :: (go% p.core, .ptr p.core) :: (go% p.json, .bytes p.json) :: [(go% path, .strs path)])⟩) (readRes h p .floats)
      (forUp val.length (splitBody (convFloat fl) (convFloat fl) val) 0 ⟨1, false, 0, []⟩) := by
  run_go [Src.Parser.GetFloatArray.for1]
  have hends : ∀ m : Out (List UInt64), (((readRes h p .floats) : Out (List UInt64) → Res Unit) m).ends = true := fun m => by cases m <;> rfl
  refine (loop_forUp (hi := val.length) (b := splitBody (convFloat fl) (convFloat fl) val) (fun i (s : SplitSt UInt64) => ⟨(), ((go% i, .int i) :: (0, .nil) :: (go% level, .int s.level) :: (go% inQuote, .bool s.inQuote) :: (go% start, .int s.start) :: (go% newArray, .floats s.acc) :: (0, .nil) :: (go% lena, .int n) :: (go% err, .nil) :: (go% val, .bytes val) :: (go% «%2», .nil) :: (go% «%1», .bytes val) :: (0, .nil) :: (go% heap, .heap h) :: (go% p.core, .ptr p.core) :: (go% p.json, .bytes p.json) :: [(go% path, .strs path)])⟩) (readRes h p .floats)
      (fun _ _ => True) (fun _ => True) ?_ ?_ hends (fun _ _ _ => trivial) ?_ fuel 0 ⟨1, false, 0, []⟩ trivial (by omega)).leave _ ?_ hends
  · intro i s; run_go []
  · intro i s; run_go []; rfl
  · intro i s hi _
    obtain ⟨c, hc⟩ := getElem?_of_lt hi
    obtain ⟨st, q, lv, acc⟩ := s
    have hm : max i (i + 1) = i + 1 := by omega
    rcases arrayByte c with h1 | ⟨h2, h1⟩ | ⟨⟨h1, h2⟩, h0⟩
    · run_go [splitBody, Src.Parser.GetFloatArray.body1, hc, h1, Sim, Res.goes, hm]; rfl
    · run_go [splitBody, Src.Parser.GetFloatArray.body1, hc, h1, h2, Sim, Res.goes]
    cases q
    rotate_left
    · run_go [splitBody, Src.Parser.GetFloatArray.body1, hc, h1, h2, Sim, Res.goes]
    rcases h0 with ⟨h3, h4, h5, h6, h7⟩ | ⟨h3, h4, h5, h6, h7⟩ | ⟨h3, h4, h5, h6, h7⟩ | ⟨h3, h4, h5, h6, h7⟩ | ⟨h3, h4, h5, h6, h7⟩ | ⟨h3, h4, h5, h6, h7⟩
    · cases h8 : lv + 1 == 1 <;> cases h9 : lv + 1 == 0 <;> run_go [splitBody, Src.Parser.GetFloatArray.body1, hc, h1, h2, h3, h4, h5, h6, h7, h8, h9, Sim, Res.goes]
    · cases h8 : lv + 1 == 1 <;> cases h9 : lv + 1 == 0 <;> run_go [splitBody, Src.Parser.GetFloatArray.body1, hc, h1, h2, h3, h4, h5, h6, h7, h8, h9, Sim, Res.goes]
    · cases h9 : lv - 1 == 0
      · cases h8 : lv - 1 == 1 <;> run_go [splitBody, Src.Parser.GetFloatArray.body1, hc, h1, h2, h3, h4, h5, h6, h7, h8, h9, Sim, Res.goes]
      · rcases slice_cases val st i with ⟨b, h10⟩ | h10
        rotate_left
        · run_go [splitBody, Src.Parser.GetFloatArray.body1, hc, h1, h2, h3, h4, h5, h6, h7, h9, h10, readRes, Sim, Res.goes]
        have hb : b.length < fuel := Nat.lt_of_le_of_lt (slice_length h10) hf
        rcases clean_cases b with ⟨v, h11⟩ | h11
        rotate_left
        · run_go [splitBody, Src.Parser.GetFloatArray.body1, hc, h1, h2, h3, h4, h5, h6, h7, h9, h10, run_cleanValueString b hb, h11, convFloat, readRes, Sim, Res.goes]
        cases h12 : fl.parse v <;> run_go [splitBody, Src.Parser.GetFloatArray.body1, hc, h1, h2, h3, h4, h5, h6, h7, h10, run_cleanValueString b hb, h11, h9, convFloat, h12, orErr, Option.map_some, Option.map_none, readRes, Sim, Res.goes, true_and]
    · cases h8 : lv - 1 == 1 <;> cases h9 : lv - 1 == 0 <;> run_go [splitBody, Src.Parser.GetFloatArray.body1, hc, h1, h2, h3, h4, h5, h6, h7, h8, h9, Sim, Res.goes]
    · cases h8 : lv == 1
      · run_go [splitBody, Src.Parser.GetFloatArray.body1, hc, h1, h2, h3, h4, h5, h6, h7, h8, Sim, Res.goes]
      · rcases slice_cases val st i with ⟨b, h10⟩ | h10
        rotate_left
        · run_go [splitBody, Src.Parser.GetFloatArray.body1, hc, h1, h2, h3, h4, h5, h6, h7, h8, h10, readRes, Sim, Res.goes]
        have hb : b.length < fuel := Nat.lt_of_le_of_lt (slice_length h10) hf
        rcases clean_cases b with ⟨v, h11⟩ | h11
        rotate_left
        · run_go [splitBody, Src.Parser.GetFloatArray.body1, hc, h1, h2, h3, h4, h5, h6, h7, h8, h10, run_cleanValueString b hb, h11, convFloat, readRes, Sim, Res.goes]
        cases h12 : fl.parse v <;> run_go [splitBody, Src.Parser.GetFloatArray.body1, hc, h1, h2, h3, h4, h5, h6, h7, h10, run_cleanValueString b hb, h11, h8, convFloat, h12, orErr, Option.map_some, Option.map_none, readRes, Sim, Res.goes, Int.natCast_succ]
    · cases h8 : lv == 1 <;> run_go [splitBody, Src.Parser.GetFloatArray.body1, hc, h1, h2, h3, h4, h5, h6, h7, h8, Sim, Res.goes]
  · intro i s; rfl

theorem Parser_GetBoolArray_for1 (val : Bytes) (hf : val.length < fuel) (n : Int) (h : NHeap) (p : ParserP) (path : List Bytes) :
    exec (ctx fl fuel (d + 2)) fuel Src.Parser.GetBoolArray.for1 ⟨(), (go% level, .int 0) :: (go% inQuote, .bool false) :: (go% start, .int 1) :: (go% newArray, .bools []) :: (0, .nil) :: (go% lena, .int n) :: (go% err, .nil) :: (go% val, .bytes val) :: (go% «%2», .nil) :: (go% «%1», .bytes val) :: (0, .nil) :: (go% heap, .heap h) :: (go% p.core, .ptr p.core) :: (go% p.json, .bytes p.json) :: [(go% path, .strs path)]⟩ =
    after (fun s : SplitSt Bool => ⟨(), ((go% level, .int s.level) :: (go% inQuote, .bool s.inQuote) :: (go% start, .int s.start) :: (go% newArray, .bools s.acc) :: (0, .nil) :: (go% lena, .int n) :: (go% err, .nil) :: (go% val, .bytes val) :: (go% «%2», .nil) :: (go% «%1», .bytes val) :: (0, .nil) :: (go% heap, .heap h) :: (go% p.core, .ptr p.core) :: (go% p.json, .bytes p.json) :: [(go% path, .strs path)])⟩) (readRes h p .bools)
      (forUp val.length (splitBody convBool convBoolLast val) 0 ⟨1, false, 0, []⟩) := by
  run_go [Src.Parser.GetBoolArray.for1]
  have hends : ∀ m : Out (List Bool), (((readRes h p .bools) : Out (List Bool) → Res Unit) m).ends = true := fun m => by cases m <;> rfl
  refine (loop_forUp (hi := val.length) (b := splitBody convBool convBoolLast val) (fun i (s : SplitSt Bool) => ⟨(), ((go% i, .int i) :: (0, .nil) :: (go% level, .int s.level) :: (go% inQuote, .bool s.inQuote) :: (go% start, .int s.start) :: (go% newArray, .bools s.acc) :: (0, .nil) :: (go% lena, .int n) :: (go% err, .nil) :: (go% val, .bytes val) :: (go% «%2», .nil) :: (go% «%1», .bytes val) :: (0, .nil) :: (go% heap, .heap h) :: (go% p.core, .ptr p.core) :: (go% p.json, .bytes p.json) :: [(go% path, .strs path)])⟩) (readRes h p .bools)
      (fun _ _ => True) (fun _ => True) ?_ ?_ hends (fun _ _ _ => trivial) ?_ fuel 0 ⟨1, false, 0, []⟩ trivial (by omega)).leave _ ?_ hends
  · intro i s; run_go []
  · intro i s; run_go []; rfl
  · intro i s hi _
    obtain ⟨c, hc⟩ := getElem?_of_lt hi
    obtain ⟨st, q, lv, acc⟩ := s
    have ht : bTrue = [116,114,117,101] := rfl
    have hff : bFalse = [102,97,108,115,101] := rfl
    have hm : max i (i + 1) = i + 1 := by omega
    rcases arrayByte c with h1 | ⟨h2, h1⟩ | ⟨⟨h1, h2⟩, h0⟩
    · run_go [splitBody, Src.Parser.GetBoolArray.body1, hc, h1, Sim, Res.goes, hm]; rfl
    · run_go [splitBody, Src.Parser.GetBoolArray.body1, hc, h1, h2, Sim, Res.goes]
    cases q
    rotate_left
    · run_go [splitBody, Src.Parser.GetBoolArray.body1, hc, h1, h2, Sim, Res.goes]
    rcases h0 with ⟨h3, h4, h5, h6, h7⟩ | ⟨h3, h4, h5, h6, h7⟩ | ⟨h3, h4, h5, h6, h7⟩ | ⟨h3, h4, h5, h6, h7⟩ | ⟨h3, h4, h5, h6, h7⟩ | ⟨h3, h4, h5, h6, h7⟩
    · cases h8 : lv + 1 == 1 <;> cases h9 : lv + 1 == 0 <;> run_go [splitBody, Src.Parser.GetBoolArray.body1, hc, h1, h2, h3, h4, h5, h6, h7, h8, h9, Sim, Res.goes]
    · cases h8 : lv + 1 == 1 <;> cases h9 : lv + 1 == 0 <;> run_go [splitBody, Src.Parser.GetBoolArray.body1, hc, h1, h2, h3, h4, h5, h6, h7, h8, h9, Sim, Res.goes]
    · cases h9 : lv - 1 == 0
      · cases h8 : lv - 1 == 1 <;> run_go [splitBody, Src.Parser.GetBoolArray.body1, hc, h1, h2, h3, h4, h5, h6, h7, h8, h9, Sim, Res.goes]
      · rcases slice_cases val st i with ⟨b, h10⟩ | h10
        rotate_left
        · run_go [splitBody, Src.Parser.GetBoolArray.body1, hc, h1, h2, h3, h4, h5, h6, h7, h9, h10, readRes, Sim, Res.goes]
        have hb : b.length < fuel := Nat.lt_of_le_of_lt (slice_length h10) hf
        rcases clean_cases b with ⟨v, h11⟩ | h11
        rotate_left
        · run_go [splitBody, Src.Parser.GetBoolArray.body1, hc, h1, h2, h3, h4, h5, h6, h7, h9, h10, run_cleanValueString b hb, h11, convBoolLast, readRes, Sim, Res.goes]
        have hv : v.length < fuel := Nat.lt_of_le_of_lt (clean_length h11) hb
        cases h12 : v == bTrue <;> cases h13 : v == bFalse <;> rcases clean_cases v with ⟨w, h14⟩ | h14 <;>
          run_go [splitBody, Src.Parser.GetBoolArray.body1, hc, h1, h2, h3, h4, h5, h6, h7, h10, run_cleanValueString b hb, h11, h9, ← ht, ← hff, convBoolLast, h12, h13, run_cleanValueString v hv, h14, readRes, Sim, Res.goes, true_and]
    · cases h8 : lv - 1 == 1 <;> cases h9 : lv - 1 == 0 <;> run_go [splitBody, Src.Parser.GetBoolArray.body1, hc, h1, h2, h3, h4, h5, h6, h7, h8, h9, Sim, Res.goes]
    · cases h8 : lv == 1
      · run_go [splitBody, Src.Parser.GetBoolArray.body1, hc, h1, h2, h3, h4, h5, h6, h7, h8, Sim, Res.goes]
      · rcases slice_cases val st i with ⟨b, h10⟩ | h10
        rotate_left
        · run_go [splitBody, Src.Parser.GetBoolArray.body1, hc, h1, h2, h3, h4, h5, h6, h7, h8, h10, readRes, Sim, Res.goes]
        have hb : b.length < fuel := Nat.lt_of_le_of_lt (slice_length h10) hf
        rcases clean_cases b with ⟨v, h11⟩ | h11
        rotate_left
        · run_go [splitBody, Src.Parser.GetBoolArray.body1, hc, h1, h2, h3, h4, h5, h6, h7, h8, h10, run_cleanValueString b hb, h11, convBool, readRes, Sim, Res.goes]
        cases h12 : v == bTrue <;> cases h13 : v == bFalse <;>
          run_go [splitBody, Src.Parser.GetBoolArray.body1, hc, h1, h2, h3, h4, h5, h6, h7, h10, run_cleanValueString b hb, h11, h8, ← ht, ← hff, convBool, h12, h13, readRes, Sim, Res.goes, Int.natCast_succ]
    · cases h8 : lv == 1 <;> run_go [splitBody, Src.Parser.GetBoolArray.body1, hc, h1, h2, h3, h4, h5, h6, h7, h8, Sim, Res.goes]
  · intro i s; rfl

/-- What `Parser.GetString` returns, at an inner call. -/
theorem readVals_bytes (h : NHeap) (p : ParserP) (o : Out Bytes) : (match o with
    | .ok v => R.ok [Val.heap h, .ptr p.core, .bytes p.json, .bytes v, .nil]
    | .err e => .ok [.heap h, .ptr p.core, .bytes p.json, .nil, .err e]
    | .panic => .panic) = readVals h p .nil (o.map .bytes) := by
  cases o <;> rfl

section
variable (fl : FloatLib UInt64) {h : NHeap} (p : ParserP) {path : List Bytes} {o : Out Bytes}

/-- The number that a text is. -/
def floatOf (v : Bytes) : Out UInt64 :=
  match fl.parse v with
  | some n => .ok n
  | none => .err (.floatParse v)

theorem ParseArray_no_err (v : Bytes) (e : Err) : ParseArray v ≠ .err e := by
  intro h8
  have hne : ∀ b e, cleanValueString b ≠ .err e := fun b e h => by
    rcases clean_cases b with ⟨a, h'⟩ | h' <;> rw [h'] at h <;> cases h
  have := split_noerr hne hne v
  rw [ParseArray] at h8
  split at h8
  · cases h8
  split at h8
  · split at h8
    · cases h8
    · cases h9 : splitArray cleanValueString cleanValueString v with
      | err e => exact this e h9
      | ok a => rw [h9] at h8; cases h8
      | panic => rw [h9] at h8; cases h8
  · cases h8

theorem get_string (H : Call fl (go% Parser.Get) [.heap h, .ptr p.core, .bytes p.json] path (readVals h p .nil (o.map .bytes))) :
    Call fl (go% Parser.GetString) [.heap h, .ptr p.core, .bytes p.json] path (readVals h p (.bytes []) (o.map .bytes)) := by
  refine Call.lift2 0 H (g := Src.Parser.GetString) (ps := [_, _, _]) rfl rfl rfl rfl fun fuel d _ h0 => ?_
  simp only [List.cons_append, List.nil_append] at h0 ⊢
  rw [fn_run (g := Src.Parser.GetString) rfl]
  cases o <;> run_go [Func.run, Src.Parser.GetString, bindParams, h0, Out.map, readVals]

variable (H : Call fl (go% Parser.GetString) [.heap h, .ptr p.core, .bytes p.json] path (readVals h p (.bytes []) (o.map .bytes)))
include H

theorem get_int :
    Call fl (go% Parser.GetInt) [.heap h, .ptr p.core, .bytes p.json] path (readVals h p (.int (-1)) ((o.bind fun v =>
      match atoi v with
      | some n => .ok n
      | none => .err (.integerParse v)).map .int)) := by
  refine Call.lift2 0 H (g := Src.Parser.GetInt) (ps := [_, _, _]) rfl rfl rfl rfl fun fuel d _ h0 => ?_
  simp only [List.cons_append, List.nil_append] at h0 ⊢
  rw [fn_run (g := Src.Parser.GetInt) rfl]
  cases o with
  | ok v => cases h2 : atoi v <;> run_go [Func.run, Src.Parser.GetInt, bindParams, h0, Out.map, Out.bind, readVals, h2, orErr, Option.map_some, Option.map_none]
  | err e => run_go [Func.run, Src.Parser.GetInt, bindParams, h0, Out.map, Out.bind, readVals]
  | panic => run_go [Func.run, Src.Parser.GetInt, bindParams, h0, Out.map, Out.bind, readVals]

theorem get_float :
    Call fl (go% Parser.GetFloat) [.heap h, .ptr p.core, .bytes p.json] path (readVals h p (.int (-1)) ((o.bind (floatOf fl)).map .float)) := by
  refine Call.lift2 0 H (g := Src.Parser.GetFloat) (ps := [_, _, _]) rfl rfl rfl rfl fun fuel d _ h0 => ?_
  simp only [List.cons_append, List.nil_append] at h0 ⊢
  rw [fn_run (g := Src.Parser.GetFloat) rfl]
  cases o with
  | ok v => cases h2 : fl.parse v <;> run_go [Func.run, Src.Parser.GetFloat, bindParams, h0, Out.map, Out.bind, floatOf, readVals, h2, orErr, Option.map_some, Option.map_none]
  | err e => run_go [Func.run, Src.Parser.GetFloat, bindParams, h0, Out.map, Out.bind, readVals]
  | panic => run_go [Func.run, Src.Parser.GetFloat, bindParams, h0, Out.map, Out.bind, readVals]

theorem get_bool :
    Call fl (go% Parser.GetBool) [.heap h, .ptr p.core, .bytes p.json] path (readVals h p (.bool false) ((o.bind fun v =>
      if v == bTrue then .ok true
      else if v == bFalse then .ok false
      else .err (.boolParse v)).map .bool)) := by
  refine Call.lift2 0 H (g := Src.Parser.GetBool) (ps := [_, _, _]) rfl rfl rfl rfl fun fuel d _ h0 => ?_
  simp only [List.cons_append, List.nil_append] at h0 ⊢
  rw [fn_run (g := Src.Parser.GetBool) rfl]
  have ht : bTrue = [116, 114, 117, 101] := rfl
  have hg : bFalse = [102, 97, 108, 115, 101] := rfl
  cases o with
  | ok v =>
    cases h2 : v == bTrue <;> cases h3 : v == bFalse <;>
      run_go [Func.run, Src.Parser.GetBool, bindParams, h0, Out.map, Out.bind, readVals, ← ht, ← hg, h2, h3]
  | err e => run_go [Func.run, Src.Parser.GetBool, bindParams, h0, Out.map, Out.bind, readVals]
  | panic => run_go [Func.run, Src.Parser.GetBool, bindParams, h0, Out.map, Out.bind, readVals]

theorem get_strings :
    Call fl (go% Parser.GetStringArray) [.heap h, .ptr p.core, .bytes p.json] path (readVals h p .nil ((o.bind fun val =>
      if val.length < 2 then .err (.stringArrayParse val)
      else if bracketed val then (ParseArray val).bind fun arr =>
        match arr with
        | none => .err (.stringArrayParse val)
        | some arr => .ok arr
      else .err (.stringArrayParse val)).map .strs)) := by
  refine Call.lift2 (match o with | .ok v => v.length | _ => 0) H (g := Src.Parser.GetStringArray) (ps := [_, _, _]) rfl rfl rfl rfl fun fuel d hf h0 => ?_
  simp only [List.cons_append, List.nil_append] at h0 ⊢
  rw [fn_run (g := Src.Parser.GetStringArray) rfl]
  cases o with
  | err e => run_go [Func.run, Src.Parser.GetStringArray, bindParams, h0, Out.map, Out.bind, readVals]
  | panic => run_go [Func.run, Src.Parser.GetStringArray, bindParams, h0, Out.map, Out.bind, readVals]
  | ok v =>
    by_cases h1 : v.length < 2
    · run_go [Func.run, Src.Parser.GetStringArray, bindParams, h0, Out.map, Out.bind, readVals, lt_two, h1]
    obtain ⟨a, z, h2, h3, h4, h5⟩ := ends_of h1
    cases h6 : a == 91
    · cases h7 : z == 93 <;> run_go [Func.run, Src.Parser.GetStringArray, bindParams, h0, Out.map, Out.bind, readVals, lt_two, h1, h2, h3, h4, h5, h6, h7, bracketed, Option.some_beq_some]
    cases h7 : z == 93
    · run_go [Func.run, Src.Parser.GetStringArray, bindParams, h0, Out.map, Out.bind, readVals, lt_two, h1, h2, h3, h4, h5, h6, h7, bracketed, Option.some_beq_some]
    have hp := ParseArray_no_err v
    cases h8 : ParseArray v with
    | err e => exact absurd h8 (hp e)
    | panic => run_go [Func.run, Src.Parser.GetStringArray, bindParams, h0, Out.map, Out.bind, readVals, lt_two, h1, h2, h3, h4, h5, h6, h7, bracketed, Option.some_beq_some, run_ParseArray v hf, h8, optStrs]
    | ok x => cases x <;> run_go [Func.run, Src.Parser.GetStringArray, bindParams, h0, Out.map, Out.bind, readVals, lt_two, h1, h2, h3, h4, h5, h6, h7, bracketed, Option.some_beq_some, run_ParseArray v hf, h8, optStrs]

theorem get_ints :
    Call fl (go% Parser.GetIntArray) [.heap h, .ptr p.core, .bytes p.json] path (readVals h p .nil ((o.bind fun val =>
      if val.length < 2 then .err (.integerArrayParse val)
      else if bracketed val then splitArray convInt convInt val
      else .err (.integerArrayParse val)).map .ints)) := by
  refine Call.lift2 (match o with | .ok v => v.length | _ => 0) H (g := Src.Parser.GetIntArray) (ps := [_, _, _]) rfl rfl rfl rfl fun fuel d hf h0 => ?_
  simp only [List.cons_append, List.nil_append] at h0 ⊢
  rw [fn_run (g := Src.Parser.GetIntArray) rfl]
  cases o with
  | err e => run_go [Func.run, Src.Parser.GetIntArray, bindParams, h0, Out.map, Out.bind, readVals]
  | panic => run_go [Func.run, Src.Parser.GetIntArray, bindParams, h0, Out.map, Out.bind, readVals]
  | ok v =>
    by_cases h1 : v.length < 2
    · run_go [Func.run, Src.Parser.GetIntArray, bindParams, h0, Out.map, Out.bind, readVals, lt_two, h1]
    obtain ⟨a, z, h2, h3, h4, h5⟩ := ends_of h1
    cases h6 : a == 91
    · cases h7 : z == 93 <;> run_go [Func.run, Src.Parser.GetIntArray, bindParams, h0, Out.map, Out.bind, readVals, lt_two, h1, h2, h3, h4, h5, h6, h7, bracketed, Option.some_beq_some]
    cases h7 : z == 93
    · run_go [Func.run, Src.Parser.GetIntArray, bindParams, h0, Out.map, Out.bind, readVals, lt_two, h1, h2, h3, h4, h5, h6, h7, bracketed, Option.some_beq_some]
    have e1 := Parser_GetIntArray_for1 (fl := fl) (d := d + 3) v hf v.length h p path
    cases h10 : forUp v.length (splitBody convInt convInt v) 0 ⟨1, false, 0, []⟩ with
    | done s => rw [h10] at e1; run_go [Func.run, Src.Parser.GetIntArray, bindParams, h0, Out.map, Out.bind, readVals, lt_two, h1, h2, h3, h4, h5, h6, h7, bracketed, Option.some_beq_some, e1, after, splitArray, h10]
    | ret r => rw [h10] at e1; cases r <;> run_go [Func.run, Src.Parser.GetIntArray, bindParams, h0, Out.map, Out.bind, readVals, lt_two, h1, h2, h3, h4, h5, h6, h7, bracketed, Option.some_beq_some, e1, after, splitArray, h10, readRes]

theorem get_floats :
    Call fl (go% Parser.GetFloatArray) [.heap h, .ptr p.core, .bytes p.json] path (readVals h p .nil ((o.bind fun val =>
      if val.length < 2 then .err (.floatArrayParse val)
      else if bracketed val then splitArray (convFloat fl) (convFloat fl) val
      else .err (.floatArrayParse val)).map .floats)) := by
  refine Call.lift2 (match o with | .ok v => v.length | _ => 0) H (g := Src.Parser.GetFloatArray) (ps := [_, _, _]) rfl rfl rfl rfl fun fuel d hf h0 => ?_
  simp only [List.cons_append, List.nil_append] at h0 ⊢
  rw [fn_run (g := Src.Parser.GetFloatArray) rfl]
  cases o with
  | err e => run_go [Func.run, Src.Parser.GetFloatArray, bindParams, h0, Out.map, Out.bind, readVals]
  | panic => run_go [Func.run, Src.Parser.GetFloatArray, bindParams, h0, Out.map, Out.bind, readVals]
  | ok v =>
    by_cases h1 : v.length < 2
    · run_go [Func.run, Src.Parser.GetFloatArray, bindParams, h0, Out.map, Out.bind, readVals, lt_two, h1]
    obtain ⟨a, z, h2, h3, h4, h5⟩ := ends_of h1
    cases h6 : a == 91
    · cases h7 : z == 93 <;> run_go [Func.run, Src.Parser.GetFloatArray, bindParams, h0, Out.map, Out.bind, readVals, lt_two, h1, h2, h3, h4, h5, h6, h7, bracketed, Option.some_beq_some]
    cases h7 : z == 93
    · run_go [Func.run, Src.Parser.GetFloatArray, bindParams, h0, Out.map, Out.bind, readVals, lt_two, h1, h2, h3, h4, h5, h6, h7, bracketed, Option.some_beq_some]
    have e1 := Parser_GetFloatArray_for1 (fl := fl) (d := d + 3) v hf v.length h p path
    cases h10 : forUp v.length (splitBody (convFloat fl) (convFloat fl) v) 0 ⟨1, false, 0, []⟩ with
    | done s => rw [h10] at e1; run_go [Func.run, Src.Parser.GetFloatArray, bindParams, h0, Out.map, Out.bind, readVals, lt_two, h1, h2, h3, h4, h5, h6, h7, bracketed, Option.some_beq_some, e1, after, splitArray, h10]
    | ret r => rw [h10] at e1; cases r <;> run_go [Func.run, Src.Parser.GetFloatArray, bindParams, h0, Out.map, Out.bind, readVals, lt_two, h1, h2, h3, h4, h5, h6, h7, bracketed, Option.some_beq_some, e1, after, splitArray, h10, readRes]

theorem get_bools :
    Call fl (go% Parser.GetBoolArray) [.heap h, .ptr p.core, .bytes p.json] path (readVals h p .nil ((o.bind fun val =>
      if val.length < 2 then .err (.boolArrayParse val)
      else if bracketed val then splitArray convBool convBoolLast val
      else .err (.boolArrayParse val)).map .bools)) := by
  refine Call.lift2 (match o with | .ok v => v.length | _ => 0) H (g := Src.Parser.GetBoolArray) (ps := [_, _, _]) rfl rfl rfl rfl fun fuel d hf h0 => ?_
  simp only [List.cons_append, List.nil_append] at h0 ⊢
  rw [fn_run (g := Src.Parser.GetBoolArray) rfl]
  cases o with
  | err e => run_go [Func.run, Src.Parser.GetBoolArray, bindParams, h0, Out.map, Out.bind, readVals]
  | panic => run_go [Func.run, Src.Parser.GetBoolArray, bindParams, h0, Out.map, Out.bind, readVals]
  | ok v =>
    by_cases h1 : v.length < 2
    · run_go [Func.run, Src.Parser.GetBoolArray, bindParams, h0, Out.map, Out.bind, readVals, lt_two, h1]
    obtain ⟨a, z, h2, h3, h4, h5⟩ := ends_of h1
    cases h6 : a == 91
    · cases h7 : z == 93 <;> run_go [Func.run, Src.Parser.GetBoolArray, bindParams, h0, Out.map, Out.bind, readVals, lt_two, h1, h2, h3, h4, h5, h6, h7, bracketed, Option.some_beq_some]
    cases h7 : z == 93
    · run_go [Func.run, Src.Parser.GetBoolArray, bindParams, h0, Out.map, Out.bind, readVals, lt_two, h1, h2, h3, h4, h5, h6, h7, bracketed, Option.some_beq_some]
    have e1 := Parser_GetBoolArray_for1 (fl := fl) (d := d + 3) v hf v.length h p path
    cases h10 : forUp v.length (splitBody convBool convBoolLast v) 0 ⟨1, false, 0, []⟩ with
    | done s => rw [h10] at e1; run_go [Func.run, Src.Parser.GetBoolArray, bindParams, h0, Out.map, Out.bind, readVals, lt_two, h1, h2, h3, h4, h5, h6, h7, bracketed, Option.some_beq_some, e1, after, splitArray, h10]
    | ret r => rw [h10] at e1; cases r <;> run_go [Func.run, Src.Parser.GetBoolArray, bindParams, h0, Out.map, Out.bind, readVals, lt_two, h1, h2, h3, h4, h5, h6, h7, bracketed, Option.some_beq_some, e1, after, splitArray, h10, readRes]

end

end Jin.Go

import Verif.Go.Type
import Verif.Proof.NoPanic
/-!
# Go.Array — `ParseArray` and the functions that read an array
-/

namespace Jin.Go

/-- The bytes the loops over an array tell apart. -/
theorem arrayByte (c : UInt8) :
    (c == 92) = true ∨ (c == 34) = true ∧ (c == 92) = false ∨
    ((c == 92) = false ∧ (c == 34) = false) ∧
     ((c == 91) = true ∧ (c == 123) = false ∧ (c == 93) = false ∧ (c == 125) = false ∧ (c == 44) = false ∨
      (c == 91) = false ∧ (c == 123) = true ∧ (c == 93) = false ∧ (c == 125) = false ∧ (c == 44) = false ∨
      (c == 91) = false ∧ (c == 123) = false ∧ (c == 93) = true ∧ (c == 125) = false ∧ (c == 44) = false ∨
      (c == 91) = false ∧ (c == 123) = false ∧ (c == 93) = false ∧ (c == 125) = true ∧ (c == 44) = false ∨
      (c == 91) = false ∧ (c == 123) = false ∧ (c == 93) = false ∧ (c == 125) = false ∧ (c == 44) = true ∨
      (c == 91) = false ∧ (c == 123) = false ∧ (c == 93) = false ∧ (c == 125) = false ∧ (c == 44) = false) := by
  by_cases h1 : c = 92
  · subst h1; decide
  by_cases h2 : c = 34
  · subst h2; decide
  by_cases h3 : c = 91
  · subst h3; decide
  by_cases h4 : c = 123
  · subst h4; decide
  by_cases h5 : c = 93
  · subst h5; decide
  by_cases h6 : c = 125
  · subst h6; decide
  by_cases h7 : c = 44
  · subst h7; decide
  simp [h1, h2, h3, h4, h5, h6, h7]

theorem unquote_slice (b : Bytes) (i j : Nat) : unquoteSlice b i j = .panic ∨ ∃ x y : Int, unquoteSlice b i j = slice b x y := by
  rw [unquoteSlice]
  rcases idx_cases b i with ⟨x, h1⟩ | h1
  · cases h2 : x == 34
    · exact .inr ⟨i, j + 1, by run_go [h1, h2]⟩
    · rcases idx_cases b j with ⟨y, h3⟩ | h3
      · cases h4 : y == 34
        · exact .inr ⟨i, j + 1, by run_go [h1, h2, h3, h4]⟩
        · exact .inr ⟨i + 1, j, by run_go [h1, h2, h3, h4]⟩
      · exact .inl (by run_go [h1, h2, h3])
  · exact .inl (by run_go [h1])

theorem clean_cases (b : Bytes) : (∃ a, cleanValueString b = .ok a) ∨ cleanValueString b = .panic := by
  rw [cleanValueString]
  split
  · exact .inr rfl
  · rcases unquote_slice b (cvsUp b 0) (cvsDown b (b.length - 1)) with h | ⟨x, y, h⟩
    · exact .inr h
    · rw [h]; exact slice_cases b x y

theorem ends_of {b : Bytes} (h : ¬ b.length < 2) : ∃ a z, b[0]? = some a ∧ b.head? = some a ∧ elem b ((b.length : Int) - 1) = .ok z ∧ b.getLast? = some z := by
  have h0 : 0 < b.length := by omega
  refine ⟨b[0], b[b.length - 1], by simp, by simp [List.head?_eq_getElem?], ?_, by simp [List.getLast?_eq_getElem?]⟩
  rw [show ((b.length : Int) - 1) = ((b.length - 1 : Nat) : Int) by omega, elem_nat, List.getElem?_eq_getElem (by omega)]
  rfl

/-- The end of `ParseArray`. -/
def listRes : Out (List Bytes) → Res Unit
  | .ok l => .ret () [.strs l]
  | _ => .panic

/-- Only a conversion of an element makes an error. -/
theorem split_noerr {α : Type} {conv last : Bytes → Out α} (h1 : ∀ b e, conv b ≠ .err e) (h2 : ∀ b e, last b ≠ .err e) (val : Bytes) (e : Err) :
    splitArray conv last val ≠ .err e := by
  have hno : ∀ f : Bytes → Out α, (∀ b e, f b ≠ .err e) → ∀ i j e, (slice val i j >>= f) ≠ .err e := by
    intro f hf i j e
    rcases slice_cases val i j with ⟨b, h⟩ | h <;> rw [h]
    · exact hf b e
    · intro h; cases h
  have key := forUp_inv (hi := val.length) (body := splitBody conv last val) (P := fun _ _ => True) (Q := fun _ => True)
    (R := fun r => ∀ e, r ≠ .err e) (by
      intro i s hi _
      rw [splitBody]
      split
      · intro e h; cases h
      · split
        · trivial
        · split
          · trivial
          · split
            · trivial
            · dsimp only
              repeat' split
              all_goals first
                | trivial
                | (intro e h; cases h; done)
                | exact absurd (by assumption) (hno _ h1 _ _ _)
                | exact absurd (by assumption) (hno _ h2 _ _ _)) (fun _ _ _ _ => trivial) (i := 0) (s := ⟨1, false, 0, []⟩) trivial
  rw [splitArray]
  cases h : forUp val.length (splitBody conv last val) 0 ⟨1, false, 0, []⟩ with
  | done s => intro h; cases h
  | ret r => rw [h] at key; exact key e

theorem slice_length {b r : Bytes} {i j : Int} (h : slice b i j = .ok r) : r.length ≤ b.length := by
  rw [slice] at h
  split at h
  · cases h; simp; omega
  · cases h

theorem clean_length {b r : Bytes} (h : cleanValueString b = .ok r) : r.length ≤ b.length := by
  rw [cleanValueString] at h
  split at h
  · cases h
  · rcases unquote_slice b (cvsUp b 0) (cvsDown b (b.length - 1)) with h1 | ⟨x, y, h1⟩
    · rw [h1] at h; cases h
    · rw [h1] at h; exact slice_length h

section
variable {fl : FloatLib UInt64} {fuel d : Nat} {sp : Bool} {json : Bytes} {path : List Bytes}

theorem ParseArray_for1 (val : Bytes) (hf : val.length < fuel) (ρ : Env) :
    exec (ctx fl fuel (d + 2)) fuel Src.ParseArray.for1 ⟨(), (go% level, .int 0) :: (go% inQuote, .bool false) :: (go% start, .int 1) :: (go% newArray, .strs []) :: (0, .nil) :: (go% arr, .bytes val) :: ρ⟩ =
    after (fun s : SplitSt Bytes => ⟨(), ((go% level, .int s.level) :: (go% inQuote, .bool s.inQuote) :: (go% start, .int s.start) :: (go% newArray, .strs s.acc) :: (0, .nil) :: (go% arr, .bytes val) :: ρ)⟩) listRes
      (forUp val.length (splitBody cleanValueString cleanValueString val) 0 ⟨1, false, 0, []⟩) := by
  run_go [Src.ParseArray.for1]
  have hends : ∀ m : Out (List Bytes), ((listRes : Out (List Bytes) → Res Unit) m).ends = true := fun m => by cases m <;> rfl
  refine (loop_forUp (hi := val.length) (b := splitBody cleanValueString cleanValueString val) (fun i (s : SplitSt Bytes) => ⟨(), ((go% i, .int i) :: (0, .nil) :: (go% level, .int s.level) :: (go% inQuote, .bool s.inQuote) :: (go% start, .int s.start) :: (go% newArray, .strs s.acc) :: (0, .nil) :: (go% arr, .bytes val) :: ρ)⟩) listRes
      (fun _ _ => True) (fun _ => True) ?_ ?_ hends (fun _ _ _ => trivial) ?_ fuel 0 ⟨1, false, 0, []⟩ trivial (by omega)).leave _ ?_ hends
  · intro i s; run_go []
  · intro i s; run_go []; rfl
  · intro i s hi _
    obtain ⟨c, hc⟩ := getElem?_of_lt hi
    obtain ⟨st, q, lv, acc⟩ := s
    have hm : max i (i + 1) = i + 1 := by omega
    rcases arrayByte c with h1 | ⟨h2, h1⟩ | ⟨⟨h1, h2⟩, h⟩
    · run_go [splitBody, Src.ParseArray.body1, hc, h1, Sim, Res.goes, hm]; rfl
    · run_go [splitBody, Src.ParseArray.body1, hc, h1, h2, Sim, Res.goes]
    cases q
    rotate_left
    · run_go [splitBody, Src.ParseArray.body1, hc, h1, h2, Sim, Res.goes]
    rcases h with ⟨h3, h4, h5, h6, h7⟩ | ⟨h3, h4, h5, h6, h7⟩ | ⟨h3, h4, h5, h6, h7⟩ | ⟨h3, h4, h5, h6, h7⟩ | ⟨h3, h4, h5, h6, h7⟩ | ⟨h3, h4, h5, h6, h7⟩
    · cases h8 : lv + 1 == 1 <;> cases h9 : lv + 1 == 0 <;> run_go [splitBody, Src.ParseArray.body1, hc, h1, h2, h3, h4, h5, h6, h7, h8, h9, Sim, Res.goes]
    · cases h8 : lv + 1 == 1 <;> cases h9 : lv + 1 == 0 <;> run_go [splitBody, Src.ParseArray.body1, hc, h1, h2, h3, h4, h5, h6, h7, h8, h9, Sim, Res.goes]
    · cases h9 : lv - 1 == 0
      · cases h8 : lv - 1 == 1 <;> run_go [splitBody, Src.ParseArray.body1, hc, h1, h2, h3, h4, h5, h6, h7, h8, h9, Sim, Res.goes]
      · rcases slice_cases val st i with ⟨b, h10⟩ | h10
        rotate_left
        · run_go [splitBody, Src.ParseArray.body1, hc, h1, h2, h3, h4, h5, h6, h7, h9, h10, listRes, oneRes, Sim, Res.goes]
        have hb : b.length < fuel := Nat.lt_of_le_of_lt (slice_length h10) hf
        rcases clean_cases b with ⟨v, h11⟩ | h11
        rotate_left
        · run_go [splitBody, Src.ParseArray.body1, hc, h1, h2, h3, h4, h5, h6, h7, h9, h10, run_cleanValueString b hb, h11, listRes, oneRes, Sim, Res.goes]
        run_go [splitBody, Src.ParseArray.body1, hc, h1, h2, h3, h4, h5, h6, h7, h10, run_cleanValueString b hb, h11, h9, Sim, Res.goes, true_and]
    · cases h8 : lv - 1 == 1 <;> cases h9 : lv - 1 == 0 <;> run_go [splitBody, Src.ParseArray.body1, hc, h1, h2, h3, h4, h5, h6, h7, h8, h9, Sim, Res.goes]
    · cases h8 : lv == 1
      · run_go [splitBody, Src.ParseArray.body1, hc, h1, h2, h3, h4, h5, h6, h7, h8, Sim, Res.goes]
      · rcases slice_cases val st i with ⟨b, h10⟩ | h10
        rotate_left
        · run_go [splitBody, Src.ParseArray.body1, hc, h1, h2, h3, h4, h5, h6, h7, h8, h10, listRes, oneRes, Sim, Res.goes]
        have hb : b.length < fuel := Nat.lt_of_le_of_lt (slice_length h10) hf
        rcases clean_cases b with ⟨v, h11⟩ | h11
        rotate_left
        · run_go [splitBody, Src.ParseArray.body1, hc, h1, h2, h3, h4, h5, h6, h7, h8, h10, run_cleanValueString b hb, h11, listRes, oneRes, Sim, Res.goes]
        run_go [splitBody, Src.ParseArray.body1, hc, h1, h2, h3, h4, h5, h6, h7, h10, run_cleanValueString b hb, h11, h8, Sim, Res.goes, Int.natCast_succ]
    · cases h8 : lv == 1 <;> run_go [splitBody, Src.ParseArray.body1, hc, h1, h2, h3, h4, h5, h6, h7, h8, Sim, Res.goes]
  · intro i s; rfl

theorem GetIntArray_for1 (val : Bytes) (hf : val.length < fuel) (n : Int) (ρ : Env) :
    exec (ctx fl fuel (d + 2)) fuel Src.GetIntArray.for1 ⟨(), (go% level, .int 0) :: (go% inQuote, .bool false) :: (go% start, .int 1) :: (go% newArray, .ints []) :: (0, .nil) :: (go% lena, .int n) :: (go% err, .nil) :: (go% val, .bytes val) :: ρ⟩ =
    after (fun s : SplitSt Int => ⟨(), ((go% level, .int s.level) :: (go% inQuote, .bool s.inQuote) :: (go% start, .int s.start) :: (go% newArray, .ints s.acc) :: (0, .nil) :: (go% lena, .int n) :: (go% err, .nil) :: (go% val, .bytes val) :: ρ)⟩) (oneRes .ints .nil)
      (forUp val.length (splitBody convInt convInt val) 0 ⟨1, false, 0, []⟩) := by
  run_go [Src.GetIntArray.for1]
  have hends : ∀ m : Out (List Int), (((oneRes .ints .nil) : Out (List Int) → Res Unit) m).ends = true := fun m => by cases m <;> rfl
  refine (loop_forUp (hi := val.length) (b := splitBody convInt convInt val) (fun i (s : SplitSt Int) => ⟨(), ((go% i, .int i) :: (0, .nil) :: (go% level, .int s.level) :: (go% inQuote, .bool s.inQuote) :: (go% start, .int s.start) :: (go% newArray, .ints s.acc) :: (0, .nil) :: (go% lena, .int n) :: (go% err, .nil) :: (go% val, .bytes val) :: ρ)⟩) (oneRes .ints .nil)
      (fun _ _ => True) (fun _ => True) ?_ ?_ hends (fun _ _ _ => trivial) ?_ fuel 0 ⟨1, false, 0, []⟩ trivial (by omega)).leave _ ?_ hends
  · intro i s; run_go []
  · intro i s; run_go []; rfl
  · intro i s hi _
    obtain ⟨c, hc⟩ := getElem?_of_lt hi
    obtain ⟨st, q, lv, acc⟩ := s
    have hm : max i (i + 1) = i + 1 := by omega
    rcases arrayByte c with h1 | ⟨h2, h1⟩ | ⟨⟨h1, h2⟩, h⟩
    · run_go [splitBody, Src.GetIntArray.body1, hc, h1, Sim, Res.goes, hm]; rfl
    · run_go [splitBody, Src.GetIntArray.body1, hc, h1, h2, Sim, Res.goes]
    cases q
    rotate_left
    · run_go [splitBody, Src.GetIntArray.body1, hc, h1, h2, Sim, Res.goes]
    rcases h with ⟨h3, h4, h5, h6, h7⟩ | ⟨h3, h4, h5, h6, h7⟩ | ⟨h3, h4, h5, h6, h7⟩ | ⟨h3, h4, h5, h6, h7⟩ | ⟨h3, h4, h5, h6, h7⟩ | ⟨h3, h4, h5, h6, h7⟩
    · cases h8 : lv + 1 == 1 <;> cases h9 : lv + 1 == 0 <;> run_go [splitBody, Src.GetIntArray.body1, hc, h1, h2, h3, h4, h5, h6, h7, h8, h9, Sim, Res.goes]
    · cases h8 : lv + 1 == 1 <;> cases h9 : lv + 1 == 0 <;> run_go [splitBody, Src.GetIntArray.body1, hc, h1, h2, h3, h4, h5, h6, h7, h8, h9, Sim, Res.goes]
    · cases h9 : lv - 1 == 0
      · cases h8 : lv - 1 == 1 <;> run_go [splitBody, Src.GetIntArray.body1, hc, h1, h2, h3, h4, h5, h6, h7, h8, h9, Sim, Res.goes]
      · rcases slice_cases val st i with ⟨b, h10⟩ | h10
        rotate_left
        · run_go [splitBody, Src.GetIntArray.body1, hc, h1, h2, h3, h4, h5, h6, h7, h9, h10, listRes, oneRes, Sim, Res.goes]
        have hb : b.length < fuel := Nat.lt_of_le_of_lt (slice_length h10) hf
        rcases clean_cases b with ⟨v, h11⟩ | h11
        rotate_left
        · run_go [splitBody, Src.GetIntArray.body1, hc, h1, h2, h3, h4, h5, h6, h7, h9, h10, run_cleanValueString b hb, h11, convInt, listRes, oneRes, Sim, Res.goes]
        cases h12 : atoi v <;> run_go [splitBody, Src.GetIntArray.body1, hc, h1, h2, h3, h4, h5, h6, h7, h10, run_cleanValueString b hb, h11, h9, convInt, h12, orErr, Option.map_some, Option.map_none, oneRes, Sim, Res.goes, true_and]
    · cases h8 : lv - 1 == 1 <;> cases h9 : lv - 1 == 0 <;> run_go [splitBody, Src.GetIntArray.body1, hc, h1, h2, h3, h4, h5, h6, h7, h8, h9, Sim, Res.goes]
    · cases h8 : lv == 1
      · run_go [splitBody, Src.GetIntArray.body1, hc, h1, h2, h3, h4, h5, h6, h7, h8, Sim, Res.goes]
      · rcases slice_cases val st i with ⟨b, h10⟩ | h10
        rotate_left
        · run_go [splitBody, Src.GetIntArray.body1, hc, h1, h2, h3, h4, h5, h6, h7, h8, h10, listRes, oneRes, Sim, Res.goes]
        have hb : b.length < fuel := Nat.lt_of_le_of_lt (slice_length h10) hf
        rcases clean_cases b with ⟨v, h11⟩ | h11
        rotate_left
        · run_go [splitBody, Src.GetIntArray.body1, hc, h1, h2, h3, h4, h5, h6, h7, h8, h10, run_cleanValueString b hb, h11, convInt, listRes, oneRes, Sim, Res.goes]
        cases h12 : atoi v <;> run_go [splitBody, Src.GetIntArray.body1, hc, h1, h2, h3, h4, h5, h6, h7, h10, run_cleanValueString b hb, h11, h8, convInt, h12, orErr, Option.map_some, Option.map_none, oneRes, Sim, Res.goes, Int.natCast_succ]
    · cases h8 : lv == 1 <;> run_go [splitBody, Src.GetIntArray.body1, hc, h1, h2, h3, h4, h5, h6, h7, h8, Sim, Res.goes]
  · intro i s; rfl

theorem GetFloatArray_for1 (val : Bytes) (hf : val.length < fuel) (n : Int) (ρ : Env) :
    exec (ctx fl fuel (d + 2)) fuel Src.GetFloatArray.for1 ⟨(), (go% level, .int 0) :: (go% inQuote, .bool false) :: (go% start, .int 1) :: (go% newArray, .floats []) :: (0, .nil) :: (go% lena, .int n) :: (go% err, .nil) :: (go% val, .bytes val) :: ρ⟩ =
    after (fun s : SplitSt UInt64 => ⟨(), ((go% level, .int s.level) :: (go% inQuote, .bool s.inQuote) :: (go% start, .int s.start) :: (go% newArray, .floats s.acc) :: (0, .nil) :: (go% lena, .int n) :: (go% err, .nil) :: (go% val, .bytes val) :: ρ)⟩) (oneRes .floats .nil)
      (forUp val.length (splitBody (convFloat fl) (convFloat fl) val) 0 ⟨1, false, 0, []⟩) := by
  run_go [Src.GetFloatArray.for1]
  have hends : ∀ m : Out (List UInt64), (((oneRes .floats .nil) : Out (List UInt64) → Res Unit) m).ends = true := fun m => by cases m <;> rfl
  refine (loop_forUp (hi := val.length) (b := splitBody (convFloat fl) (convFloat fl) val) (fun i (s : SplitSt UInt64) => ⟨(), ((go% i, .int i) :: (0, .nil) :: (go% level, .int s.level) :: (go% inQuote, .bool s.inQuote) :: (go% start, .int s.start) :: (go% newArray, .floats s.acc) :: (0, .nil) :: (go% lena, .int n) :: (go% err, .nil) :: (go% val, .bytes val) :: ρ)⟩) (oneRes .floats .nil)
      (fun _ _ => True) (fun _ => True) ?_ ?_ hends (fun _ _ _ => trivial) ?_ fuel 0 ⟨1, false, 0, []⟩ trivial (by omega)).leave _ ?_ hends
  · intro i s; run_go []
  · intro i s; run_go []; rfl
  · intro i s hi _
    obtain ⟨c, hc⟩ := getElem?_of_lt hi
    obtain ⟨st, q, lv, acc⟩ := s
    have hm : max i (i + 1) = i + 1 := by omega
    rcases arrayByte c with h1 | ⟨h2, h1⟩ | ⟨⟨h1, h2⟩, h⟩
    · run_go [splitBody, Src.GetFloatArray.body1, hc, h1, Sim, Res.goes, hm]; rfl
    · run_go [splitBody, Src.GetFloatArray.body1, hc, h1, h2, Sim, Res.goes]
    cases q
    rotate_left
    · run_go [splitBody, Src.GetFloatArray.body1, hc, h1, h2, Sim, Res.goes]
    rcases h with ⟨h3, h4, h5, h6, h7⟩ | ⟨h3, h4, h5, h6, h7⟩ | ⟨h3, h4, h5, h6, h7⟩ | ⟨h3, h4, h5, h6, h7⟩ | ⟨h3, h4, h5, h6, h7⟩ | ⟨h3, h4, h5, h6, h7⟩
    · cases h8 : lv + 1 == 1 <;> cases h9 : lv + 1 == 0 <;> run_go [splitBody, Src.GetFloatArray.body1, hc, h1, h2, h3, h4, h5, h6, h7, h8, h9, Sim, Res.goes]
    · cases h8 : lv + 1 == 1 <;> cases h9 : lv + 1 == 0 <;> run_go [splitBody, Src.GetFloatArray.body1, hc, h1, h2, h3, h4, h5, h6, h7, h8, h9, Sim, Res.goes]
    · cases h9 : lv - 1 == 0
      · cases h8 : lv - 1 == 1 <;> run_go [splitBody, Src.GetFloatArray.body1, hc, h1, h2, h3, h4, h5, h6, h7, h8, h9, Sim, Res.goes]
      · rcases slice_cases val st i with ⟨b, h10⟩ | h10
        rotate_left
        · run_go [splitBody, Src.GetFloatArray.body1, hc, h1, h2, h3, h4, h5, h6, h7, h9, h10, listRes, oneRes, Sim, Res.goes]
        have hb : b.length < fuel := Nat.lt_of_le_of_lt (slice_length h10) hf
        rcases clean_cases b with ⟨v, h11⟩ | h11
        rotate_left
        · run_go [splitBody, Src.GetFloatArray.body1, hc, h1, h2, h3, h4, h5, h6, h7, h9, h10, run_cleanValueString b hb, h11, convFloat, listRes, oneRes, Sim, Res.goes]
        cases h12 : fl.parse v <;> run_go [splitBody, Src.GetFloatArray.body1, hc, h1, h2, h3, h4, h5, h6, h7, h10, run_cleanValueString b hb, h11, h9, convFloat, h12, orErr, Option.map_some, Option.map_none, oneRes, Sim, Res.goes, true_and]
    · cases h8 : lv - 1 == 1 <;> cases h9 : lv - 1 == 0 <;> run_go [splitBody, Src.GetFloatArray.body1, hc, h1, h2, h3, h4, h5, h6, h7, h8, h9, Sim, Res.goes]
    · cases h8 : lv == 1
      · run_go [splitBody, Src.GetFloatArray.body1, hc, h1, h2, h3, h4, h5, h6, h7, h8, Sim, Res.goes]
      · rcases slice_cases val st i with ⟨b, h10⟩ | h10
        rotate_left
        · run_go [splitBody, Src.GetFloatArray.body1, hc, h1, h2, h3, h4, h5, h6, h7, h8, h10, listRes, oneRes, Sim, Res.goes]
        have hb : b.length < fuel := Nat.lt_of_le_of_lt (slice_length h10) hf
        rcases clean_cases b with ⟨v, h11⟩ | h11
        rotate_left
        · run_go [splitBody, Src.GetFloatArray.body1, hc, h1, h2, h3, h4, h5, h6, h7, h8, h10, run_cleanValueString b hb, h11, convFloat, listRes, oneRes, Sim, Res.goes]
        cases h12 : fl.parse v <;> run_go [splitBody, Src.GetFloatArray.body1, hc, h1, h2, h3, h4, h5, h6, h7, h10, run_cleanValueString b hb, h11, h8, convFloat, h12, orErr, Option.map_some, Option.map_none, oneRes, Sim, Res.goes, Int.natCast_succ]
    · cases h8 : lv == 1 <;> run_go [splitBody, Src.GetFloatArray.body1, hc, h1, h2, h3, h4, h5, h6, h7, h8, Sim, Res.goes]
  · intro i s; rfl

theorem GetBoolArray_for1 (val : Bytes) (hf : val.length < fuel) (n : Int) (ρ : Env) :
    exec (ctx fl fuel (d + 2)) fuel Src.GetBoolArray.for1 ⟨(), (go% level, .int 0) :: (go% inQuote, .bool false) :: (go% start, .int 1) :: (go% newArray, .bools []) :: (0, .nil) :: (go% lena, .int n) :: (go% err, .nil) :: (go% val, .bytes val) :: ρ⟩ =
    after (fun s : SplitSt Bool => ⟨(), ((go% level, .int s.level) :: (go% inQuote, .bool s.inQuote) :: (go% start, .int s.start) :: (go% newArray, .bools s.acc) :: (0, .nil) :: (go% lena, .int n) :: (go% err, .nil) :: (go% val, .bytes val) :: ρ)⟩) (oneRes .bools .nil)
      (forUp val.length (splitBody convBool convBoolLast val) 0 ⟨1, false, 0, []⟩) := by
  run_go [Src.GetBoolArray.for1]
  have hends : ∀ m : Out (List Bool), (((oneRes .bools .nil) : Out (List Bool) → Res Unit) m).ends = true := fun m => by cases m <;> rfl
  refine (loop_forUp (hi := val.length) (b := splitBody convBool convBoolLast val) (fun i (s : SplitSt Bool) => ⟨(), ((go% i, .int i) :: (0, .nil) :: (go% level, .int s.level) :: (go% inQuote, .bool s.inQuote) :: (go% start, .int s.start) :: (go% newArray, .bools s.acc) :: (0, .nil) :: (go% lena, .int n) :: (go% err, .nil) :: (go% val, .bytes val) :: ρ)⟩) (oneRes .bools .nil)
      (fun _ _ => True) (fun _ => True) ?_ ?_ hends (fun _ _ _ => trivial) ?_ fuel 0 ⟨1, false, 0, []⟩ trivial (by omega)).leave _ ?_ hends
  · intro i s; run_go []
  · intro i s; run_go []; rfl
  · intro i s hi _
    obtain ⟨c, hc⟩ := getElem?_of_lt hi
    obtain ⟨st, q, lv, acc⟩ := s
    have ht : bTrue = [116,114,117,101] := rfl
    have hff : bFalse = [102,97,108,115,101] := rfl
    have hm : max i (i + 1) = i + 1 := by omega
    rcases arrayByte c with h1 | ⟨h2, h1⟩ | ⟨⟨h1, h2⟩, h⟩
    · run_go [splitBody, Src.GetBoolArray.body1, hc, h1, Sim, Res.goes, hm]; rfl
    · run_go [splitBody, Src.GetBoolArray.body1, hc, h1, h2, Sim, Res.goes]
    cases q
    rotate_left
    · run_go [splitBody, Src.GetBoolArray.body1, hc, h1, h2, Sim, Res.goes]
    rcases h with ⟨h3, h4, h5, h6, h7⟩ | ⟨h3, h4, h5, h6, h7⟩ | ⟨h3, h4, h5, h6, h7⟩ | ⟨h3, h4, h5, h6, h7⟩ | ⟨h3, h4, h5, h6, h7⟩ | ⟨h3, h4, h5, h6, h7⟩
    · cases h8 : lv + 1 == 1 <;> cases h9 : lv + 1 == 0 <;> run_go [splitBody, Src.GetBoolArray.body1, hc, h1, h2, h3, h4, h5, h6, h7, h8, h9, Sim, Res.goes]
    · cases h8 : lv + 1 == 1 <;> cases h9 : lv + 1 == 0 <;> run_go [splitBody, Src.GetBoolArray.body1, hc, h1, h2, h3, h4, h5, h6, h7, h8, h9, Sim, Res.goes]
    · cases h9 : lv - 1 == 0
      · cases h8 : lv - 1 == 1 <;> run_go [splitBody, Src.GetBoolArray.body1, hc, h1, h2, h3, h4, h5, h6, h7, h8, h9, Sim, Res.goes]
      · rcases slice_cases val st i with ⟨b, h10⟩ | h10
        rotate_left
        · run_go [splitBody, Src.GetBoolArray.body1, hc, h1, h2, h3, h4, h5, h6, h7, h9, h10, listRes, oneRes, Sim, Res.goes]
        have hb : b.length < fuel := Nat.lt_of_le_of_lt (slice_length h10) hf
        rcases clean_cases b with ⟨v, h11⟩ | h11
        rotate_left
        · run_go [splitBody, Src.GetBoolArray.body1, hc, h1, h2, h3, h4, h5, h6, h7, h9, h10, run_cleanValueString b hb, h11, convBoolLast, listRes, oneRes, Sim, Res.goes]
        have hv : v.length < fuel := Nat.lt_of_le_of_lt (clean_length h11) hb
        cases h12 : v == bTrue <;> cases h13 : v == bFalse <;> rcases clean_cases v with ⟨w, h14⟩ | h14 <;>
          run_go [splitBody, Src.GetBoolArray.body1, hc, h1, h2, h3, h4, h5, h6, h7, h10, run_cleanValueString b hb, h11, h9, ← ht, ← hff, convBoolLast, h12, h13, run_cleanValueString v hv, h14, oneRes, Sim, Res.goes, true_and]
    · cases h8 : lv - 1 == 1 <;> cases h9 : lv - 1 == 0 <;> run_go [splitBody, Src.GetBoolArray.body1, hc, h1, h2, h3, h4, h5, h6, h7, h8, h9, Sim, Res.goes]
    · cases h8 : lv == 1
      · run_go [splitBody, Src.GetBoolArray.body1, hc, h1, h2, h3, h4, h5, h6, h7, h8, Sim, Res.goes]
      · rcases slice_cases val st i with ⟨b, h10⟩ | h10
        rotate_left
        · run_go [splitBody, Src.GetBoolArray.body1, hc, h1, h2, h3, h4, h5, h6, h7, h8, h10, listRes, oneRes, Sim, Res.goes]
        have hb : b.length < fuel := Nat.lt_of_le_of_lt (slice_length h10) hf
        rcases clean_cases b with ⟨v, h11⟩ | h11
        rotate_left
        · run_go [splitBody, Src.GetBoolArray.body1, hc, h1, h2, h3, h4, h5, h6, h7, h8, h10, run_cleanValueString b hb, h11, convBool, listRes, oneRes, Sim, Res.goes]
        cases h12 : v == bTrue <;> cases h13 : v == bFalse <;>
          run_go [splitBody, Src.GetBoolArray.body1, hc, h1, h2, h3, h4, h5, h6, h7, h10, run_cleanValueString b hb, h11, h8, ← ht, ← hff, convBool, h12, h13, oneRes, Sim, Res.goes, Int.natCast_succ]
    · cases h8 : lv == 1 <;> run_go [splitBody, Src.GetBoolArray.body1, hc, h1, h2, h3, h4, h5, h6, h7, h8, Sim, Res.goes]
  · intro i s; rfl

/-- What `ParseArray` returns. -/
def optStrs : Out (Option (List Bytes)) → R (List Val)
  | .ok (some l) => .ok [.strs l]
  | .ok none => .ok [.nil]
  | _ => .panic

theorem run_ParseArray (arr : Bytes) (hf : arr.length < fuel) :
    (jin fl).fn fuel (d + 3) (go% ParseArray) sp [.bytes arr] = optStrs (ParseArray arr) := by
  rw [fn_run (g := Src.ParseArray) rfl]
  by_cases h1 : arr.length < 2
  · run_go [Func.run, Src.ParseArray, bindParams, ParseArray, lt_two, h1, optStrs, Bool.and_self]
  obtain ⟨a, z, h2, h3, h4, h5⟩ := ends_of h1
  have e1 := ParseArray_for1 (fl := fl) (d := d) arr hf []
  cases h6 : a == 91
  · cases h7 : z == 93 <;> run_go [Func.run, Src.ParseArray, bindParams, ParseArray, lt_two, h1, h2, h3, h4, h5, h6, h7, optStrs, Option.some_beq_some]
  cases h7 : z == 93
  · run_go [Func.run, Src.ParseArray, bindParams, ParseArray, lt_two, h1, h2, h3, h4, h5, h6, h7, optStrs, Option.some_beq_some]
  have h9 : ((arr.length : Int) == 2) = (arr.length == 2) := by rw [Bool.eq_iff_iff]; simp; omega
  cases h8 : arr.length == 2
  · cases h10 : forUp arr.length (splitBody cleanValueString cleanValueString arr) 0 ⟨1, false, 0, []⟩ with
    | done s => rw [h10] at e1; run_go [Func.run, Src.ParseArray, bindParams, ParseArray, lt_two, h1, h2, h3, h4, h5, h6, h7, optStrs, Option.some_beq_some, h9, h8, e1, after, splitArray, h10, Out.map]
    | ret r => rw [h10] at e1; cases r <;> run_go [Func.run, Src.ParseArray, bindParams, ParseArray, lt_two, h1, h2, h3, h4, h5, h6, h7, optStrs, Option.some_beq_some, h9, h8, e1, after, listRes, splitArray, h10, Out.map]
  · run_go [Func.run, Src.ParseArray, bindParams, ParseArray, lt_two, h1, h2, h3, h4, h5, h6, h7, optStrs, Option.some_beq_some, h9, h8]

theorem GetString_length {v : Bytes} (h : GetString json path = .ok v) : v.length ≤ json.length := by
  rw [GetString] at h
  cases h1 : Get json path with
  | ok b =>
    rw [h1] at h
    cases h
    rw [Get] at h1
    split at h1
    · cases h1; exact Nat.le_refl _
    · cases h2 : core json false path with
      | ok l => rw [h2] at h1; exact slice_length h1
      | err e => rw [h2] at h1; cases h1
      | panic => rw [h2] at h1; cases h1
  | err e => rw [h1] at h; cases h
  | panic => rw [h1] at h; cases h

theorem run_GetIntArray (hf : need json path < fuel) :
    (jin fl).fn fuel (d + 5) (go% GetIntArray) true [.bytes json, .strs path] = oneVal .ints .nil (GetIntArray json path) := by
  rw [fn_run (g := Src.GetIntArray) rfl]
  refine one_body rfl ?_
  cases h : GetString json path with
  | err e => run_go [Src.GetIntArray, GetIntArray, run_GetString hf, h, oneVal, oneRes]
  | panic => run_go [Src.GetIntArray, GetIntArray, run_GetString hf, h, oneVal, oneRes]
  | ok v =>
    by_cases h1 : v.length < 2
    · run_go [Src.GetIntArray, GetIntArray, run_GetString hf, h, oneVal, oneRes, lt_two, h1]
    obtain ⟨a, z, h2, h3, h4, h5⟩ := ends_of h1
    have hv : v.length < fuel := by have := GetString_length h; unfold need at hf; omega
    have e1 := GetIntArray_for1 (fl := fl) (d := d + 2) v hv v.length [(0, .nil), (go% json, .bytes json), (go% path, .strs path)]
    cases h6 : a == 91
    · cases h7 : z == 93 <;> run_go [Src.GetIntArray, GetIntArray, run_GetString hf, h, oneVal, oneRes, lt_two, h1, h2, h3, h4, h5, h6, h7, bracketed, Option.some_beq_some]
    cases h7 : z == 93
    · run_go [Src.GetIntArray, GetIntArray, run_GetString hf, h, oneVal, oneRes, lt_two, h1, h2, h3, h4, h5, h6, h7, bracketed, Option.some_beq_some]
    cases h10 : forUp v.length (splitBody convInt convInt v) 0 ⟨1, false, 0, []⟩ with
    | done s => rw [h10] at e1; run_go [Src.GetIntArray, GetIntArray, run_GetString hf, h, oneVal, oneRes, lt_two, h1, h2, h3, h4, h5, h6, h7, bracketed, Option.some_beq_some, e1, after, splitArray, h10]
    | ret r => rw [h10] at e1; cases r <;> run_go [Src.GetIntArray, GetIntArray, run_GetString hf, h, oneVal, oneRes, lt_two, h1, h2, h3, h4, h5, h6, h7, bracketed, Option.some_beq_some, e1, after, splitArray, h10]

theorem run_GetFloatArray (hf : need json path < fuel) :
    (jin fl).fn fuel (d + 5) (go% GetFloatArray) true [.bytes json, .strs path] = oneVal .floats .nil (GetFloatArray fl json path) := by
  rw [fn_run (g := Src.GetFloatArray) rfl]
  refine one_body rfl ?_
  cases h : GetString json path with
  | err e => run_go [Src.GetFloatArray, GetFloatArray, run_GetString hf, h, oneVal, oneRes]
  | panic => run_go [Src.GetFloatArray, GetFloatArray, run_GetString hf, h, oneVal, oneRes]
  | ok v =>
    by_cases h1 : v.length < 2
    · run_go [Src.GetFloatArray, GetFloatArray, run_GetString hf, h, oneVal, oneRes, lt_two, h1]
    obtain ⟨a, z, h2, h3, h4, h5⟩ := ends_of h1
    have hv : v.length < fuel := by have := GetString_length h; unfold need at hf; omega
    have e1 := GetFloatArray_for1 (fl := fl) (d := d + 2) v hv v.length [(0, .nil), (go% json, .bytes json), (go% path, .strs path)]
    cases h6 : a == 91
    · cases h7 : z == 93 <;> run_go [Src.GetFloatArray, GetFloatArray, run_GetString hf, h, oneVal, oneRes, lt_two, h1, h2, h3, h4, h5, h6, h7, bracketed, Option.some_beq_some]
    cases h7 : z == 93
    · run_go [Src.GetFloatArray, GetFloatArray, run_GetString hf, h, oneVal, oneRes, lt_two, h1, h2, h3, h4, h5, h6, h7, bracketed, Option.some_beq_some]
    cases h10 : forUp v.length (splitBody (convFloat fl) (convFloat fl) v) 0 ⟨1, false, 0, []⟩ with
    | done s => rw [h10] at e1; run_go [Src.GetFloatArray, GetFloatArray, run_GetString hf, h, oneVal, oneRes, lt_two, h1, h2, h3, h4, h5, h6, h7, bracketed, Option.some_beq_some, e1, after, splitArray, h10]
    | ret r => rw [h10] at e1; cases r <;> run_go [Src.GetFloatArray, GetFloatArray, run_GetString hf, h, oneVal, oneRes, lt_two, h1, h2, h3, h4, h5, h6, h7, bracketed, Option.some_beq_some, e1, after, splitArray, h10]

theorem run_GetBoolArray (hf : need json path < fuel) :
    (jin fl).fn fuel (d + 5) (go% GetBoolArray) true [.bytes json, .strs path] = oneVal .bools .nil (GetBoolArray json path) := by
  rw [fn_run (g := Src.GetBoolArray) rfl]
  refine one_body rfl ?_
  cases h : GetString json path with
  | err e => run_go [Src.GetBoolArray, GetBoolArray, run_GetString hf, h, oneVal, oneRes]
  | panic => run_go [Src.GetBoolArray, GetBoolArray, run_GetString hf, h, oneVal, oneRes]
  | ok v =>
    by_cases h1 : v.length < 2
    · run_go [Src.GetBoolArray, GetBoolArray, run_GetString hf, h, oneVal, oneRes, lt_two, h1]
    obtain ⟨a, z, h2, h3, h4, h5⟩ := ends_of h1
    have hv : v.length < fuel := by have := GetString_length h; unfold need at hf; omega
    have e1 := GetBoolArray_for1 (fl := fl) (d := d + 2) v hv v.length [(0, .nil), (go% json, .bytes json), (go% path, .strs path)]
    cases h6 : a == 91
    · cases h7 : z == 93 <;> run_go [Src.GetBoolArray, GetBoolArray, run_GetString hf, h, oneVal, oneRes, lt_two, h1, h2, h3, h4, h5, h6, h7, bracketed, Option.some_beq_some]
    cases h7 : z == 93
    · run_go [Src.GetBoolArray, GetBoolArray, run_GetString hf, h, oneVal, oneRes, lt_two, h1, h2, h3, h4, h5, h6, h7, bracketed, Option.some_beq_some]
    cases h10 : forUp v.length (splitBody convBool convBoolLast v) 0 ⟨1, false, 0, []⟩ with
    | done s => rw [h10] at e1; run_go [Src.GetBoolArray, GetBoolArray, run_GetString hf, h, oneVal, oneRes, lt_two, h1, h2, h3, h4, h5, h6, h7, bracketed, Option.some_beq_some, e1, after, splitArray, h10]
    | ret r => rw [h10] at e1; cases r <;> run_go [Src.GetBoolArray, GetBoolArray, run_GetString hf, h, oneVal, oneRes, lt_two, h1, h2, h3, h4, h5, h6, h7, bracketed, Option.some_beq_some, e1, after, splitArray, h10]

theorem run_GetStringArray (hf : need json path < fuel) :
    (jin fl).fn fuel (d + 5) (go% GetStringArray) true [.bytes json, .strs path] = oneVal .strs .nil (GetStringArray json path) := by
  rw [fn_run (g := Src.GetStringArray) rfl]
  refine one_body rfl ?_
  cases h : GetString json path with
  | err e => run_go [Src.GetStringArray, GetStringArray, run_GetString hf, h, oneVal, oneRes]
  | panic => run_go [Src.GetStringArray, GetStringArray, run_GetString hf, h, oneVal, oneRes]
  | ok v =>
    by_cases h1 : v.length < 2
    · run_go [Src.GetStringArray, GetStringArray, run_GetString hf, h, oneVal, oneRes, lt_two, h1]
    obtain ⟨a, z, h2, h3, h4, h5⟩ := ends_of h1
    have hv : v.length < fuel := by have := GetString_length h; unfold need at hf; omega
    cases h6 : a == 91
    · cases h7 : z == 93 <;> run_go [Src.GetStringArray, GetStringArray, run_GetString hf, h, oneVal, oneRes, lt_two, h1, h2, h3, h4, h5, h6, h7, bracketed, Option.some_beq_some]
    cases h7 : z == 93
    · run_go [Src.GetStringArray, GetStringArray, run_GetString hf, h, oneVal, oneRes, lt_two, h1, h2, h3, h4, h5, h6, h7, bracketed, Option.some_beq_some]
    cases h8 : ParseArray v with
    | ok r => cases r <;> run_go [Src.GetStringArray, GetStringArray, run_GetString hf, h, oneVal, oneRes, lt_two, h1, h2, h3, h4, h5, h6, h7, bracketed, Option.some_beq_some, run_ParseArray v hv, h8, optStrs]
    | err e =>
      exfalso
      have hne : ∀ b e, cleanValueString b ≠ .err e := fun b e h => by
        rcases clean_cases b with ⟨a, h'⟩ | h' <;> rw [h'] at h <;> cases h
      have := split_noerr hne hne v
      rw [ParseArray, if_neg h1] at h8
      split at h8
      · split at h8
        · cases h8
        · cases h9 : splitArray cleanValueString cleanValueString v with
          | err e => exact this e h9
          | ok l => rw [h9] at h8; cases h8
          | panic => rw [h9] at h8; cases h8
      · cases h8
    | panic => run_go [Src.GetStringArray, GetStringArray, run_GetString hf, h, oneVal, oneRes, lt_two, h1, h2, h3, h4, h5, h6, h7, bracketed, Option.some_beq_some, run_ParseArray v hv, h8, optStrs]

end

end Jin.Go

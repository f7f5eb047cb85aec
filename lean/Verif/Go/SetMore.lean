import Verif.Go.Set
/-!
# Go.SetMore — `SetKey` and the typed forms of `Set`
-/

namespace Jin.Go

theorem Mut.forms (m : Mut) : (∃ b, m = .done b none) ∨ (∃ b e, m = .done b (some e)) ∨ m = .panic := by
  match m with
  | .done b none => exact .inl ⟨b, rfl⟩
  | .done b (some e) => exact .inr (.inl ⟨b, e, rfl⟩)
  | .panic => exact .inr (.inr rfl)

section
variable {fl : FloatLib UInt64} {fuel d : Nat} {sp : Bool} {json : Bytes} {path : List Bytes}

@[go_run] theorem run_SetString (hf : need json path < fuel) (v : Bytes) :
    (jin fl).fn fuel (d + 4) (go% SetString) true [.bytes json, .bytes v, .strs path] = mutVals (SetString (fun s => (fl.parse s).isSome) json v path) := by
  rw [fn_run (g := Src.SetString) rfl]
  refine mut_body rfl ?_
  rcases Mut.forms (Set json (formatType (fun s => (fl.parse s).isSome) v) path) with ⟨b, h⟩ | ⟨b, e, h⟩ | h <;>
    run_go [Src.SetString, SetString, run_Set hf, h, mutVals, Mut.res]

@[go_run] theorem run_SetInt (hf : need json path < fuel) (n : Int) :
    (jin fl).fn fuel (d + 4) (go% SetInt) true [.bytes json, .int n, .strs path] = mutVals (SetInt json n path) := by
  rw [fn_run (g := Src.SetInt) rfl]
  refine mut_body rfl ?_
  rcases Mut.forms (Set json (itoa n) path) with ⟨b, h⟩ | ⟨b, e, h⟩ | h <;>
    run_go [Src.SetInt, SetInt, run_Set hf, h, mutVals, Mut.res]

@[go_run] theorem run_SetFloat (hf : need json path < fuel) (x : UInt64) :
    (jin fl).fn fuel (d + 4) (go% SetFloat) true [.bytes json, .float x, .strs path] = mutVals (SetFloat fl json x path) := by
  rw [fn_run (g := Src.SetFloat) rfl]
  refine mut_body rfl ?_
  rcases Mut.forms (Set json (fl.format x) path) with ⟨b, h⟩ | ⟨b, e, h⟩ | h <;>
    run_go [Src.SetFloat, SetFloat, run_Set hf, h, mutVals, Mut.res]

@[go_run] theorem run_SetBool (hf : need json path < fuel) (b : Bool) :
    (jin fl).fn fuel (d + 4) (go% SetBool) true [.bytes json, .bool b, .strs path] = mutVals (SetBool json b path) := by
  rw [fn_run (g := Src.SetBool) rfl]
  refine mut_body rfl ?_
  have ht : bTrue = [116,114,117,101] := rfl
  have hff : bFalse = [102,97,108,115,101] := rfl
  cases b
  · rcases Mut.forms (Set json bFalse path) with ⟨b, h⟩ | ⟨b, e, h⟩ | h <;>
      run_go [Src.SetBool, SetBool, boolText, ← ht, ← hff, run_Set hf, h, mutVals, Mut.res]
  · rcases Mut.forms (Set json bTrue path) with ⟨b, h⟩ | ⟨b, e, h⟩ | h <;>
      run_go [Src.SetBool, SetBool, boolText, ← ht, ← hff, run_Set hf, h, mutVals, Mut.res]

/-! ### SetKey -/

theorem sk_for1 (hf : json.length < fuel) (newKey : Bytes) {n start : Nat} (hs : start ≤ json.length) (np : List Bytes) :
    exec (ctx fl fuel (d + 1)) fuel Src.SetKey.for1 ⟨(), [(go% newPath, .strs np), (go% start, .int start), (go% keyStart, .int n),
      (go% err, .nil), (0, .nil), (go% json, .bytes json), (go% newKey, .bytes newKey), (go% path, .strs path)]⟩ =
    after (fun _ => ⟨(), [(go% newPath, .strs np), (go% start, .int start), (go% keyStart, .int n),
      (go% err, .nil), (0, .nil), (go% json, .bytes json), (go% newKey, .bytes newKey), (go% path, .strs path)]⟩) Mut.res
      (forUp start (setKeyBody json newKey n) n ()) := by
  run_go [Src.SetKey.for1]
  have hends : ∀ m : Mut, (Mut.res m).ends = true := fun m => by
    rcases Mut.forms m with ⟨b, h⟩ | ⟨b, e, h⟩ | h <;> rw [h] <;> rfl
  refine (loop_forUp (hi := start) (b := setKeyBody json newKey n) (fun i _ => ⟨(), [(go% i, .int i), (0, .nil), (go% newPath, .strs np), (go% start, .int start), (go% keyStart, .int n),
      (go% err, .nil), (0, .nil), (go% json, .bytes json), (go% newKey, .bytes newKey), (go% path, .strs path)]⟩) Mut.res (fun _ _ => True) (fun _ => True) ?_ ?_ hends
      (fun _ _ _ => trivial) ?_ fuel n () trivial (by omega)).leave _ ?_ hends
  · intro i s; run_go []
  · intro i s; run_go []; rfl
  · intro i s hi _
    obtain ⟨c, hc⟩ := getElem?_of_lt (show i < json.length by omega)
    cases h1 : c == 92 <;> cases h2 : c == 34
    · run_go [setKeyBody, Src.SetKey.body1, hc, h1, h2, Sim]
    · rcases replace_cases json newKey n i with ⟨r, h⟩ | h <;>
      run_go [setKeyBody, Src.SetKey.body1, hc, h1, h2, h, Mut.ofOut, Mut.res, Sim]
    · have e : max i (i + 1) = i + 1 := by omega
      run_go [setKeyBody, Src.SetKey.body1, hc, h1, h2, Sim, Res.goes, e]
      rfl
    · simp only [beq_iff_eq] at h1 h2; rw [h1] at h2; cases h2
  · intro i s; rfl

theorem cut_path (hp : path ≠ []) : cut path 0 ((path.length : Int) - 1) = .ok path.dropLast := by
  have hl : 0 < path.length := List.length_pos_iff.2 hp
  rw [cut, if_pos ⟨by omega, by omega, by omega⟩, List.dropLast_eq_take]
  congr 1
  simp

theorem over_path (hp : path ≠ []) : over (List.replicate path.length ([] : Bytes)) 0 path.dropLast = .ok (path.dropLast ++ [[]]) := by
  have hl : 0 < path.length := List.length_pos_iff.2 hp
  rw [over, if_pos ⟨by omega, by omega⟩]
  have h1 : path.dropLast.take path.length = path.dropLast := List.take_of_length_le (by simp)
  have h2 : path.length - (path.length - 1) = 1 := by omega
  simp [h1, h2]

theorem put_path (q : List Bytes) (k : Bytes) : put (q ++ [[]]) (((q ++ [[]]).length : Int) - 1) k = .ok (q ++ [k]) := by
  have e : (((q ++ [([] : Bytes)]).length : Nat) : Int) - 1 = q.length := by simp
  rw [put, e, if_pos ⟨by omega, by simp; omega⟩]
  simp

theorem run_SetKey (hf : need json path < fuel) (newKey : Bytes) (hf2 : need json (path.dropLast ++ [newKey]) < fuel) :
    (jin fl).fn fuel (d + 3) (go% SetKey) true [.bytes json, .bytes newKey, .strs path] = mutVals (SetKey json newKey path) := by
  rw [fn_run (g := Src.SetKey) rfl]
  refine mut_body rfl ?_
  have hf' : json.length < fuel := by unfold need at hf; omega
  cases hk : newKey.length == 0
  rotate_left
  · run_go [Src.SetKey, SetKey, hk, Mut.res]
  cases hp : path.length == 0
  rotate_left
  · run_go [Src.SetKey, SetKey, hk, hp, Mut.res]
  have hp' : path ≠ [] := by rintro rfl; cases hp
  have hn : ¬ ((path.length : Int) < 0) := by omega
  cases h1 : core json false (path.dropLast ++ [newKey]) with
  | ok l => run_go [Src.SetKey, SetKey, hk, hp, Mut.res, hn, Int.toNat_natCast, cut_path hp', over_path hp', put_path, run_core hf2, h1, locVals]
  | panic => run_go [Src.SetKey, SetKey, hk, hp, Mut.res, hn, Int.toNat_natCast, cut_path hp', over_path hp', put_path, run_core hf2, h1, locVals]
  | err e =>
    cases h2 : errEqual (some e) codeKeyNotFound
    · run_go [Src.SetKey, SetKey, hk, hp, Mut.res, hn, Int.toNat_natCast, cut_path hp', over_path hp', put_path, run_core hf2, h1, h2, locVals]
    · cases h3 : core json false path with
      | err e' => run_go [Src.SetKey, SetKey, hk, hp, Mut.res, hn, Int.toNat_natCast, cut_path hp', over_path hp', put_path, run_core hf2, h1, h2,
          run_core hf, h3, locVals, Mut.bindOut]
      | panic => run_go [Src.SetKey, SetKey, hk, hp, Mut.res, hn, Int.toNat_natCast, cut_path hp', over_path hp', put_path, run_core hf2, h1, h2,
          run_core hf, h3, locVals, Mut.bindOut]
      | ok l =>
        obtain ⟨hspot, hkey⟩ := core_shape hp' h3
        have hle : l.start ≤ json.length := Nat.le_trans hspot.le hspot.len
        rcases hkey with h4 | ⟨n, key, h4, -⟩
        · have q : (-1 : Int) < 0 := by omega
          have e1 : exec (ctx fl fuel (d + 2)) fuel Src.SetKey.for1 ⟨(), [(go% newPath, .strs (path.dropLast ++ [newKey])), (go% start, .int l.start), (go% keyStart, .int (-1)),
              (go% err, .nil), (0, .nil), (go% json, .bytes json), (go% newKey, .bytes newKey), (go% path, .strs path)]⟩ = .panic := by
            obtain ⟨fuel, rfl⟩ : ∃ k, fuel = k + 1 := ⟨fuel - 1, by omega⟩
            have q : (-1 : Int) < l.start := by omega
            have q' : elem json (-1) = .panic := rfl
            run_go [Src.SetKey.for1]
            exact loopN_halts (by run_go [q]; rfl) (by run_go [Src.SetKey.body1, q'])
          run_go [Src.SetKey, SetKey, hk, hp, Mut.res, hn, Int.toNat_natCast, cut_path hp', over_path hp', put_path, run_core hf2, h1, h2,
            run_core hf, h3, locVals, Mut.bindOut, h4, e1, q]
        · have q : ¬ ((n : Int) < 0) := by omega
          have e1 := sk_for1 (fl := fl) (d := d + 1) (path := path) hf' newKey (n := n) hle (path.dropLast ++ [newKey])
          cases h5 : forUp l.start (setKeyBody json newKey n) n () with
          | done u =>
            rw [h5] at e1
            simp only [after] at e1
            run_go [Src.SetKey, SetKey, hk, hp, Mut.res, hn, Int.toNat_natCast, cut_path hp', over_path hp', put_path, run_core hf2, h1, h2,
              run_core hf, h3, locVals, Mut.bindOut, h4, e1, q, h5]
          | ret m =>
            rw [h5] at e1
            simp only [after] at e1
            rcases Mut.forms m with ⟨b, h6⟩ | ⟨b, e, h6⟩ | h6 <;> rw [h6] at e1 h5 <;> simp only [Mut.res] at e1 <;>
            run_go [Src.SetKey, SetKey, hk, hp, Mut.res, hn, Int.toNat_natCast, cut_path hp', over_path hp', put_path, run_core hf2, h1, h2,
              run_core hf, h3, locVals, Mut.bindOut, h4, e1, q, h5]

end

end Jin.Go

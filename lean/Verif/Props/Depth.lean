import Verif.Proof.Depth
import Verif.Props.Sample
/-!
# Props.Depth — how deep a path can lead, and how deep `Walk` goes
-/

namespace Jin
open Spec

/-- A path is followed to the end only in a text that has more bytes than the path has elements,
whatever the bytes of the text are. -/
theorem C102_path_short {json : Bytes} {path : List Bytes} {v : Bytes} (hp : path ≠ []) (h : Get json path = .ok v) :
    path.length < json.length := by
  unfold Get at h
  cases hl : path.length == 0
  · rw [hl] at h
    cases hc : core json false path with
    | ok l => exact (Depth.core_length hc).2
    | err e => rw [hc] at h; cases h
    | panic => rw [hc] at h; cases h
  · exact absurd (List.length_eq_zero_iff.1 (eq_of_beq hl)) hp

/-- So `Walk` comes to an end on every text: no bound on the recursion that is at least the length of the
text makes a difference, whatever the text, the callback and its state are. -/
theorem C102_walk_ends {σ : Type} (isFloat : Bytes → Bool) (json : Bytes) (cb : σ → Bytes → Bytes → List Bytes → Cb σ) (u : σ)
    {n : Nat} (h : json.length < n) : walk isFloat json cb n [] u = Walk isFloat json cb u := by
  obtain ⟨n, rfl⟩ : ∃ k, n = k + 1 := ⟨n - 1, by omega⟩
  exact Depth.walk_enough n json.length [] u (by simp; omega) (by simp)

/-- A path of three elements in a text of nine bytes, and the same path one bracket deeper. -/
theorem C102_example :
    Get (str "[[[[7]]]]") [str "0", str "0", str "0"] = .ok (str "[7]") ∧
    Get (str "[[[[7]]]]") [str "0", str "0", str "0", str "0"] = .ok (str "7") ∧
    Get (str "[[[[7]]]]") [str "0", str "0", str "0", str "0", str "0"] = .err .indexOutOfRange := by decide +kernel


/-- A text that is cut off: `Walk` reports the element in front of the cut and ends with an error. -/
theorem C102_cut :
    Walk (fun _ => false) (str "[1, ") (fun (u : List (List Bytes)) _ _ p => .ret (u ++ [p]) true none) [] =
      .done [[str "0"]] (some (.badJSON 3)) := by decide +kernel

end Jin

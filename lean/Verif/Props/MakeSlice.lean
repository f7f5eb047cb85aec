import Verif.Go.Text
import Verif.Props.Make
/-!
# Property C119: `MakeArrayBytes` without an argument

In Go the variadic parameter of a call without variadic arguments is a `nil` slice. `MakeArrayBytes`
(make.go:281-294) is the one function read whose answer depends on that, so its answers to a slice that is
handed over as it is (`MakeArrayBytes(values...)`) are stated here, `nil` and the empty slice included.
-/

namespace Jin.Go

/-- A call `f(s...)`, or `f()` when `s` is `nil`, of a function whose only parameter is variadic. -/
def CallSlice (fl : FloatLib UInt64) (f : Id) (s : Val) (r : R (List Val)) : Prop :=
  ∃ N, ∀ fuel depth, N ≤ fuel → N ≤ depth → (jin fl).fn fuel depth f true [s] = r

/-- **C119** `MakeArrayBytes()` writes `[]`; with an empty slice that is not `nil` it writes `]`, which is no
document (the second half is the failure of C45). -/
theorem C119_bytes_nil (fl : FloatLib UInt64) :
    CallSlice fl (go% MakeArrayBytes) .nil (.ok [.bytes (str "[]")]) ∧
    CallSlice fl (go% MakeArrayBytes) (.strs []) (.ok [.bytes (str "]")]) := by
  have e1 : MakeArrayBytes none = str "[]" := (C45_make_nil_partial fl fun _ => true).2.2.2.2.2.1
  have e2 : MakeArrayBytes (some []) = str "]" := (C45_fails fl fun _ => true).2.2.2.2.2.1
  rw [← e1, ← e2]
  constructor
  · refine ⟨1, fun fuel depth _ hd => ?_⟩
    obtain ⟨d, rfl⟩ : ∃ d, depth = d + 1 := ⟨depth - 1, by omega⟩
    exact run_MakeArrayBytes none
  · refine ⟨1, fun fuel depth _ hd => ?_⟩
    obtain ⟨d, rfl⟩ : ∃ d, depth = d + 1 := ⟨depth - 1, by omega⟩
    exact run_MakeArrayBytes (some [])

end Jin.Go

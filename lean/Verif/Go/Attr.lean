import Lean
/-!
# Go.Attr — the simp set that runs statements
-/

namespace Jin.Go

/-- Rules that run a statement or an expression on values given by symbols. -/
register_simp_attr go_run

end Jin.Go

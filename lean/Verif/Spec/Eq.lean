import Verif.Spec.Json
/-!
# Spec.Eq — equality of trees is decidable (used by the concrete examples only)
-/

namespace Jin.Spec

mutual
/-- Structural comparison. -/
def Json.same : Json → Json → Bool
  | .lit a, .lit b => a == b
  | .str a, .str b => a == b
  | .arr g es, .arr g' es' => g == g' && sameElems es es'
  | .obj g ms, .obj g' ms' => g == g' && sameMembers ms ms'
  | _, _ => false
def sameElems : List (Elem Json) → List (Elem Json) → Bool
  | [], [] => true
  | ⟨l, v, r⟩ :: es, ⟨l', v', r'⟩ :: es' => l == l' && v.same v' && r == r' && sameElems es es'
  | _, _ => false
def sameMembers : List (Member Json) → List (Member Json) → Bool
  | [], [] => true
  | ⟨l, k, m, l2, v, r⟩ :: ms, ⟨l', k', m', l2', v', r'⟩ :: ms' =>
    l == l' && k == k' && m == m' && l2 == l2' && v.same v' && r == r' && sameMembers ms ms'
  | _, _ => false
end

mutual
theorem Json.same_iff : ∀ a b : Json, a.same b = true ↔ a = b
  | .lit a, b => by cases b <;> simp [Json.same]
  | .str a, b => by cases b <;> simp [Json.same]
  | .arr g es, b => by
    cases b <;> simp [Json.same]
    intro _; exact sameElems_iff es _
  | .obj g ms, b => by
    cases b <;> simp [Json.same]
    intro _; exact sameMembers_iff ms _
theorem sameElems_iff : ∀ a b : List (Elem Json), sameElems a b = true ↔ a = b
  | [], b => by cases b <;> simp [sameElems]
  | ⟨l, v, r⟩ :: es, b => by
    rcases b with _ | ⟨⟨l', v', r'⟩, es'⟩ <;> simp [sameElems, Json.same_iff v, sameElems_iff es, and_assoc]
theorem sameMembers_iff : ∀ a b : List (Member Json), sameMembers a b = true ↔ a = b
  | [], b => by cases b <;> simp [sameMembers]
  | ⟨l, k, m, l2, v, r⟩ :: es, b => by
    rcases b with _ | ⟨⟨l', k', m', l2', v', r'⟩, es'⟩ <;>
      simp [sameMembers, Json.same_iff v, sameMembers_iff es, and_assoc]
end

instance : DecidableEq Json := fun a b => decidable_of_iff _ (Json.same_iff a b)

end Jin.Spec

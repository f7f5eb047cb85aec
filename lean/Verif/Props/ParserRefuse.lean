import Verif.Props.ParserSync
import Verif.Props.Add
/-!
# Props.ParserRefuse — C89: `Parser.AddKeyValue` and a key that is there already
-/

namespace Jin
open Spec

/-- The node of a member has the key of the member. -/
theorem kidsM_label : ∀ {ms : List (Member Json)} {ds : List Node} {m : Member Json}, KidsM ds ms → m ∈ ms → ∃ d ∈ ds, d.label = m.key
  | [], _, _, _, h => by cases h
  | x :: ms, ds, m, hk, h => by
    rw [kidsM_cons] at hk
    obtain ⟨d, rest, rfl, hl, -, hr⟩ := hk
    rcases List.mem_cons.1 h with rfl | h
    · exact ⟨d, by simp, hl⟩
    · obtain ⟨e, he, hl⟩ := kidsM_label hr h
      exact ⟨e, by simp [he], hl⟩

/-- **C89 (partial)** The root object of a parser whose tree shows its text: a key that the object
has is refused by name, whatever the value, and the parser stays as it is.  Missing: objects below
the root, where the tree changes (`C89_fails`). -/
theorem C89_root_partial {p : Parser} {d : Doc} {g k : Text} {ms : List (Member Json)} (v : Bytes) (hs : Sync p d)
    (hr : d.root = .obj g ms) (hk0 : k ≠ []) (hk : ∃ m ∈ ms, m.key = k) :
    p.AddKeyValue k v [] = .done p (some (.keyAlreadyExist k)) := by
  have h0 : (k.length == 0) = false := by cases k <;> simp_all
  obtain ⟨m, hm, rfl⟩ := hk
  have hkids := hs.kids
  rw [hr, Kids] at hkids
  obtain ⟨n, hn, hl⟩ := kidsM_label hkids hm
  have hany : p.core.down.any (fun d => d.label == m.key) = true := List.any_eq_true.2 ⟨n, hn, by simp [hl]⟩
  simp only [Parser.AddKeyValue, h0, Bool.false_eq_true, if_false, Parser.Get, List.length_nil, beq_self_eq_true, if_true, hany]

/-- The test `newVal[0] == '[' || newVal[0] == '{'` on a JSON text. -/
theorem container_ok {k : Text} {v : Json} (hv : v.wf) :
    (if k.length ≥ 2 then (idx v.render 0).map fun c => c == 91 || c == 123 else .ok false) =
      .ok (decide (k.length ≥ 2) && v.isContainer) := by
  by_cases hk2 : k.length ≥ 2
  · simp only [hk2, if_true, decide_true, Bool.true_and]
    cases hc : v.isContainer with
    | false =>
      have hb := scalar_first hv hc
      cases hvr : v.render with
      | nil => exact absurd hvr (render_ne_nil hv)
      | cons c t =>
        have hi : idx (c :: t) 0 = .ok c := idx_nat (i := 0) rfl
        have := hb c (by simp [hvr])
        rw [hi]
        simp [Out.map, this.1, this.2]
    | true =>
      rw [render_container hc]
      have hi : ∀ t : Bytes, idx (opnOf v :: t) 0 = .ok (opnOf v) := fun t => idx_nat (i := 0) rfl
      rw [hi]
      cases v <;> simp_all [Json.isContainer, opnOf, Out.map]
  · simp [hk2]

/-- Below the root the key is refused by name as well and the text stays as it is; the tree may
not (`C89_fails`). -/
theorem C89_nested_partial {p : Parser} {d : Doc} {path : List Text} {g k : Text} {ms : List (Member Json)} {v : Json} {nd : Node}
    (hs : Sync p d) (hp : path ≠ []) (hw : p.core.walk path = .ok nd) (hg : d.get? path = some (.obj g ms)) (hk0 : k ≠ [])
    (hk : ∃ m ∈ ms, m.key = k) (hv : v.wf) :
    ∃ p', p.AddKeyValue k v.render path = .done p' (some (.keyAlreadyExist k)) ∧ p'.json = p.json := by
  have hl : (path.length == 0) = false := by cases path <;> simp_all
  have h0 : (k.length == 0) = false := by cases k <;> simp_all
  have hwf : (Json.obj g ms).wf := get_wf path (doc_wf.1 hs.wf).2.1 hg
  have hag := walk_agree path hs.kids hg hp hw
  have hget : p.Get path = .ok (Json.obj g ms).render := by
    simp only [Parser.Get, hl, Bool.false_eq_true, if_false, hw]
    exact agree_clean hwf hag
  have he := enclosed_ok (w := .obj g ms) rfl .objectExpected
  simp only [opnOf, clsOf] at he
  obtain ⟨up, hup, -⟩ : ∃ u, p.core.walk path.dropLast = .ok u ∧ u.down.find? (fun d => d.label == path.getLast hp) = some nd :=
    walk_snoc path.dropLast (by rw [List.dropLast_concat_getLast hp]; exact hw)
  have ha := C22_addKeyValue_exists d path g ms k (some v.render) hs.wf hg hk
  have hcon := container_ok (k := k) hv
  simp only [Parser.AddKeyValue, h0, hl, Bool.false_eq_true, if_false, hget, hup, he, hcon]
  split
  · exact ⟨p, rfl, rfl⟩
  · cases hb : (decide (k.length ≥ 2) && v.isContainer) with
    | false =>
      simp only [hs.json, ha]
      exact ⟨_, rfl, rfl⟩
    | true =>
      simp only [Bool.and_eq_true, decide_eq_true_eq] at hb
      obtain ⟨m, hm⟩ := pCore_value hv hb.2 (.mk [] [] [])
      simp only [hm, Out.map, hs.json, ha]
      exact ⟨_, rfl, rfl⟩

/-- The refused call leaves its node in the tree of an object below the root; and a key of the
object *around* the one addressed is refused though the object does not have it (parse_add.go:69
looks at `curr.up.down`). -/
theorem C89_fails :
    session (str "{\"o\":{\"x\":1}}") (·.AddKeyValue (str "x") (str "2") [str "o"])
      (fun p => (p.json, (p.core.down.map fun n => n.down.map Node.label))) =
        some ((str "{\"o\":{\"x\":1}}", [[str "x", str "x"]]), some (.keyAlreadyExist (str "x"))) ∧
    session (str "{\"o\":{\"y\":1},\"x\":2}") (·.AddKeyValue (str "x") (str "2") [str "o"]) Parser.json =
        some (str "{\"o\":{\"y\":1},\"x\":2}", some (.keyAlreadyExist (str "x"))) := by
  refine ⟨?_, ?_⟩ <;> decide +kernel

example : ∃ p, Parse Sample.doc.render = .ok p ∧ p.AddKeyValue (str "a") (str "5") [] = .done p (some (.keyAlreadyExist (str "a"))) ∧
    ∃ p', p.AddKeyValue (str "r") (str "5") Sample.toObj = .done p' (some (.keyAlreadyExist (str "r"))) ∧ p'.json = p.json := by
  obtain ⟨p, hp, hs⟩ := parse_sync Sample.doc_wf rfl
  refine ⟨p, hp, ?_, ?_⟩
  · exact C89_root_partial _ hs rfl (by decide +kernel) ⟨Sample.mem (str "a") (.lit (str "2")), by simp [Sample.rootMembers], rfl⟩
  · obtain ⟨nd, hw, -⟩ := C64_resolves hs Sample.toObj (w := .obj [] Sample.members) (by decide +kernel)
    exact C89_nested_partial (v := .lit (str "5")) hs (by decide) hw Sample.get_obj (by decide +kernel) (by decide +kernel) (by decide +kernel)

end Jin

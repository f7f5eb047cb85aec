import Verif.Props.Iterate
import Verif.Props.Types
import Verif.Props.Scheme
/-!
# Props.Walk — C57: `Walk`
-/

namespace Jin
open Spec

/-! ### What `Walk` should see -/

mutual
/-- Every array and object inside is non-empty, and the keys of each object are distinct. -/
def Spec.Json.walkable : Json → Bool
  | .lit _ => true
  | .str _ => true
  | .arr _ es => !es.isEmpty && walkableElems es
  | .obj _ ms => !ms.isEmpty && decide (ms.map Member.key).Nodup && walkableMembers ms
def Spec.walkableElems : List (Elem Json) → Bool
  | [] => true
  | ⟨_, v, _⟩ :: es => v.walkable && walkableElems es
def Spec.walkableMembers : List (Member Json) → Bool
  | [] => true
  | ⟨_, _, _, _, v, _⟩ :: ms => v.walkable && walkableMembers ms
end

mutual
/-- The scalars in document order: path and content. -/
def Spec.Json.leaves (path : List Text) : Json → List (List Text × Text)
  | .lit t => [(path, t)]
  | .str raw => [(path, raw)]
  | .arr _ es => leavesElems path 0 es
  | .obj _ ms => leavesMembers path ms
/-- The scalars of the elements from number `n` on. -/
def Spec.leavesElems (path : List Text) (n : Nat) : List (Elem Json) → List (List Text × Text)
  | [] => []
  | ⟨_, v, _⟩ :: es => v.leaves (path ++ [itoa n]) ++ leavesElems path (n + 1) es
def Spec.leavesMembers (path : List Text) : List (Member Json) → List (List Text × Text)
  | [] => []
  | ⟨_, k, _, _, v, _⟩ :: ms => v.leaves (path ++ [k]) ++ leavesMembers path ms
end

section
variable {σ : Type} (cb : σ → Bytes → Bytes → List Bytes → Cb σ)

/-- The call for one scalar: the last entry of the path, the content, the path.  The wish to
stop is not heard. -/
def callLeaf (path : List Text) (text : Text) (u : σ) : IterRes σ :=
  match cb u (path.getLast?.getD []) text path with
  | .panic => .panic
  | .ret u _ e => .done u e

mutual
/-- What `Walk` does, on the tree: the calls for the scalars in document order up to the first
error, where an object forgets the error of its last member. -/
def walkTree (path : List Text) : Json → σ → IterRes σ
  | .lit t, u => callLeaf cb path t u
  | .str raw, u => callLeaf cb path raw u
  | .arr _ es, u => walkElems path 0 es u
  | .obj _ ms, u => walkMembers path ms u
def walkElems (path : List Text) (n : Nat) : List (Elem Json) → σ → IterRes σ
  | [], u => .done u none
  | ⟨_, v, _⟩ :: es, u =>
    match walkTree (path ++ [itoa n]) v u with
    | .panic => .panic
    | .done u (some e) => .done u (some e)
    | .done u none => walkElems path (n + 1) es u
def walkMembers (path : List Text) : List (Member Json) → σ → IterRes σ
  | [], u => .done u none
  | ⟨_, k, _, _, v, _⟩ :: ms, u =>
    match walkTree (path ++ [k]) v u with
    | .panic => .panic
    | .done u (some e) => .done u (if ms.isEmpty then none else some e)
    | .done u none => walkMembers path ms u
end
end

/-! ### Sizes -/

theorem elem_shorter {e : Elem Json} : ∀ {es : List (Elem Json)}, e ∈ es → e.v.render.length ≤ (renderElems es).length
  | [], h => by simp at h
  | x :: es, h => by
    rw [renderElems]
    rcases List.mem_cons.1 h with rfl | h
    · simp; omega
    · have := elem_shorter h
      have hne : es.isEmpty = false := by cases es <;> simp_all
      rw [hne]; simp; omega

theorem member_shorter {m : Member Json} : ∀ {ms : List (Member Json)}, m ∈ ms → m.v.render.length ≤ (renderMembers ms).length
  | [], h => by simp at h
  | x :: ms, h => by
    rw [renderMembers]
    rcases List.mem_cons.1 h with rfl | h
    · simp; omega
    · have := member_shorter h
      have hne : ms.isEmpty = false := by cases ms <;> simp_all
      rw [hne]; simp; omega

theorem elems_count : ∀ {es : List (Elem Json)}, wfElems es → es.length ≤ (renderElems es).length
  | [], _ => by simp
  | e :: es, h => by
    rw [wfElems_iff] at h
    have h1 := elems_count (es := es) (wfElems_iff.2 fun x hx => h x (List.mem_cons_of_mem _ hx))
    have h2 := render_ne_nil (h e List.mem_cons_self).2.1
    have h3 := List.length_pos_iff.2 h2
    rw [renderElems]
    cases hes : es.isEmpty with
    | true => rw [List.isEmpty_iff.1 hes]; simp; omega
    | false => simp; omega

theorem walkableElems_iff : ∀ {es : List (Elem Json)}, walkableElems es = true ↔ ∀ e ∈ es, e.v.walkable = true
  | [] => by simp [walkableElems]
  | e :: es => by
    have := walkableElems_iff (es := es)
    simp [walkableElems, this]

theorem walkableMembers_iff : ∀ {ms : List (Member Json)}, walkableMembers ms = true ↔ ∀ m ∈ ms, m.v.walkable = true
  | [] => by simp [walkableMembers]
  | m :: ms => by
    have := walkableMembers_iff (ms := ms)
    simp [walkableMembers, this]

theorem get_elem {d : Doc} {path : List Text} {g : Text} {es : List (Elem Json)} {n : Nat} {e : Elem Json}
    (h : d.get? path = some (.arr g es)) (hn : (n : Int) ≤ 9223372036854775807) (he : es[n]? = some e) :
    d.get? (path ++ [itoa n]) = some e.v := by
  rw [Doc.get?] at h ⊢
  rw [get_append, h, Option.bind_some]
  simp [Json.get?, Json.child?, readIndex_itoa hn, he]

theorem get_member {d : Doc} {path : List Text} {g : Text} {ms : List (Member Json)} {n : Nat} {m : Member Json}
    (h : d.get? path = some (.obj g ms)) (hn : (ms.map Member.key).Nodup) (he : ms[n]? = some m) :
    d.get? (path ++ [m.key]) = some m.v := by
  rw [Doc.get?] at h ⊢
  rw [get_append, h, Option.bind_some]
  simp [Json.get?, Json.child?, memberIdx_at hn he, he]

/-! ### The recursion -/

theorem ikSeen_keys : ∀ ms : List (Member Json), ∀ n : Nat, (ikSeen ms)[n]?.map Prod.fst = ms[n]?.map Member.key
  | [], n => by simp [ikSeen]
  | m :: ms, 0 => by simp [ikSeen]
  | m :: ms, n + 1 => by simpa [ikSeen] using ikSeen_keys ms n

theorem walk_tree {σ : Type} {d : Doc} (hd : d.wf) (hl : (d.render.length : Int) ≤ 9223372036854775807) (isFloat : Bytes → Bool)
    (cb : σ → Bytes → Bytes → List Bytes → Cb σ) : ∀ (fuel : Nat) (path : List Text) (w : Json) (u : σ), d.get? path = some w →
    w.walkable = true → (path = [] → w.isContainer = true) → w.render.length < fuel →
    walk isFloat d.render cb fuel path u = walkTree cb path w u
  | 0, _, _, _, _, _, _, h => by simp at h
  | fuel + 1, path, w, u, h, hw, hp, hf => by
    have hwf : w.wf := get_wf path (doc_wf.1 hd).2.1 h
    have leaf : ∀ t, w.isContainer = false → w.content = t →
        (match Get d.render path with
          | .panic => IterRes.panic
          | .err e => .done u (some e)
          | .ok val =>
            match cb u (path.getLast?.getD []) val path with
            | .panic => .panic
            | .ret u _ e => .done u e) = callLeaf cb path t u := by
      intro t hc ht
      have hne : path ≠ [] := fun e => by rw [hp e] at hc; cases hc
      rw [get_ok hd hne h, ht]
      rfl
    rw [walk, getType_ok hd h isFloat]
    cases w with
    | lit t =>
      have := leaf t rfl (render_lit t)
      simp only
      split
      · rename_i x; revert x; repeat' split
        all_goals intro x; cases x
      · rename_i x; revert x; repeat' split
        all_goals intro x; cases x
      · rename_i x; revert x; repeat' split
        all_goals intro x; cases x
      · rename_i x; revert x; repeat' split
        all_goals intro x; cases x
      · exact this
    | str raw => exact leaf raw rfl rfl
    | arr g es =>
      simp only [Json.walkable, Bool.and_eq_true, Bool.not_eq_true'] at hw
      have hne : es ≠ [] := by rintro rfl; simp at hw
      have hwe := (wf_arr.1 hwf).2
      have hsz : es.length ≤ d.render.length := by
        have h1 := elems_count hwe
        obtain ⟨_, _, hs, -⟩ := valueStart_ok hd h
        have h2 := hs.len
        rw [render_arr, if_neg (by simpa using hne)] at h2
        simp at h2
        omega
      rw [render_arr, if_neg (by simpa using hne)] at hf
      simp only
      rw [C30_iterateArray hd h hne]
      suffices H : ∀ (ys xs : List (Elem Json)) (u : σ), es = xs ++ ys →
          visit (fun (u : σ × Nat) _ =>
            match walk isFloat d.render cb fuel (path ++ [itoa u.2]) u.1 with
            | .panic => .panic
            | .done u' (some e) => .ret (u', u.2) false (some e)
            | .done u' none => .ret (u', u.2 + 1) true none) (ys.map fun e => e.v.content) (u, xs.length) =
          match walkElems cb path xs.length ys u with
          | .panic => .panic
          | .done u' (some e) => .done (u', (match visit (fun (u : σ × Nat) _ =>
            match walk isFloat d.render cb fuel (path ++ [itoa u.2]) u.1 with
            | .panic => .panic
            | .done u' (some e) => .ret (u', u.2) false (some e)
            | .done u' none => .ret (u', u.2 + 1) true none) (ys.map fun e => e.v.content) (u, xs.length) with
              | .done s _ => s.2
              | .panic => 0)) (some e)
          | .done u' none => .done (u', es.length) none by
        have := H es [] u rfl
        simp only [List.length_nil] at this
        rw [walkTree]
        revert this
        generalize visit (σ := σ × Nat) _ _ _ = r
        intro this
        cases hr : walkElems cb path 0 es u with
        | panic => rw [hr] at this; simp only at this; rw [this]
        | done u' e =>
          rw [hr] at this
          cases e <;> simp only at this <;> rw [this]
      intro ys
      induction ys with
      | nil => intro xs u e; simp [visit, walkElems, e]
      | cons y ys ih =>
        intro xs u e
        have hy : es[xs.length]? = some y := by rw [e]; simp
        have hmem : y ∈ es := List.mem_of_getElem? hy
        have hlt : xs.length < es.length := by rw [e]; simp
        have hg := get_elem h (by omega) hy
        have hr := walk_tree hd hl isFloat cb fuel (path ++ [itoa xs.length]) y.v u hg (walkableElems_iff.1 hw.2 y hmem) (by simp)
          (by have := elem_shorter hmem; simp at hf; omega)
        have := ih (xs ++ [y])
        rw [List.map_cons, visit, walkElems]
        simp only [hr]
        cases hr' : walkTree cb (path ++ [itoa xs.length]) y.v u with
        | panic => rfl
        | done u' er =>
          cases er with
          | some er => simp
          | none =>
            have := this u' (by simp [e])
            simp only [List.length_append, List.length_cons, List.length_nil, Nat.zero_add] at this
            simp only [Option.isSome_none, Bool.false_eq_true, if_false, if_true]
            rw [← this]
    | obj g ms =>
      simp only [Json.walkable, Bool.and_eq_true, Bool.not_eq_true', decide_eq_true_eq] at hw
      have hne : ms ≠ [] := by rintro rfl; simp at hw
      rw [render_obj, if_neg (by simpa using hne)] at hf
      simp only
      rw [C31_iterateKV_partial hd h hne, walkTree]
      suffices H : ∀ (ys xs : List (Member Json)) (u : σ), ms = xs ++ ys →
          visitLast (fun u k _ =>
            match walk isFloat d.render cb fuel (path ++ [k]) u with
            | .panic => .panic
            | .done u (some e) => .ret u false (some e)
            | .done u none => .ret u true none) (ikSeen ys) u = walkMembers cb path ys u from H ms [] u rfl
      intro ys
      induction ys with
      | nil => intro xs u e; rfl
      | cons y ys ih =>
        intro xs u e
        have hy : ms[xs.length]? = some y := by rw [e]; simp
        have hmem : y ∈ ms := List.mem_of_getElem? hy
        have hg := get_member h hw.1.2 hy
        have hr := walk_tree hd hl isFloat cb fuel (path ++ [y.key]) y.v u hg (walkableMembers_iff.1 hw.2 y hmem) (by simp)
          (by have := member_shorter hmem; simp at hf; omega)
        rw [ikSeen, visitLast, walkMembers]
        simp only [hr]
        have hemp : (ikSeen ys).isEmpty = ys.isEmpty := by cases ys <;> rfl
        cases hr' : walkTree cb (path ++ [y.key]) y.v u with
        | panic => rfl
        | done u' er =>
          have := ih (xs ++ [y]) u' (by simp [e])
          cases er with
          | some er => simp only [hemp]; cases ys <;> simp
          | none =>
            simp only [hemp, Option.isSome_none, Bool.false_eq_true, if_false, if_true, this]
            cases ys with
            | nil => simp [walkMembers]
            | cons => rfl

theorem root_shorter (d : Doc) : d.root.render.length ≤ d.render.length := by
  rw [Doc.render]; simp; omega

/-- **C57, exactly** For every callback, `Walk` on a text whose containers are non-empty with
distinct keys makes the calls of `walkTree`. -/
theorem C57_walk_exact {σ : Type} (d : Doc) (hd : d.wf) (hl : (d.render.length : Int) ≤ 9223372036854775807)
    (hc : d.root.isContainer) (hw : d.root.walkable) (isFloat : Bytes → Bool) (cb : σ → Bytes → Bytes → List Bytes → Cb σ) (u : σ) :
    Walk isFloat d.render cb u = walkTree cb [] d.root u :=
  walk_tree hd hl isFloat cb _ [] d.root u rfl hw (fun _ => hc) (Nat.lt_succ_of_le (root_shorter d))

section
variable {σ : Type} (f : σ → Bytes → Bytes → List Bytes → σ) (b : σ → Bytes → Bytes → List Bytes → Bool)

mutual
theorem walkTree_fold (path : List Text) : ∀ (w : Json) (u : σ), walkTree (fun u k v p => .ret (f u k v p) (b u k v p) none) path w u =
    .done ((w.leaves path).foldl (fun u l => f u (l.1.getLast?.getD []) l.2 l.1) u) none
  | .lit t, u => by simp [walkTree, callLeaf, Json.leaves]
  | .str raw, u => by simp [walkTree, callLeaf, Json.leaves]
  | .arr _ es, u => by rw [walkTree, Json.leaves]; exact walkElems_fold path 0 es u
  | .obj _ ms, u => by rw [walkTree, Json.leaves]; exact walkMembers_fold path ms u
theorem walkElems_fold (path : List Text) (n : Nat) : ∀ (es : List (Elem Json)) (u : σ),
    walkElems (fun u k v p => .ret (f u k v p) (b u k v p) none) path n es u =
    .done ((leavesElems path n es).foldl (fun u l => f u (l.1.getLast?.getD []) l.2 l.1) u) none
  | [], u => by simp [walkElems, leavesElems]
  | ⟨l, v, r⟩ :: es, u => by
    rw [walkElems, leavesElems, walkTree_fold (path ++ [itoa n]) v u, List.foldl_append]
    exact walkElems_fold path (n + 1) es _
theorem walkMembers_fold (path : List Text) : ∀ (ms : List (Member Json)) (u : σ),
    walkMembers (fun u k v p => .ret (f u k v p) (b u k v p) none) path ms u =
    .done ((leavesMembers path ms).foldl (fun u l => f u (l.1.getLast?.getD []) l.2 l.1) u) none
  | [], u => by simp [walkMembers, leavesMembers]
  | ⟨l, k, m, l2, v, r⟩ :: ms, u => by
    rw [walkMembers, leavesMembers, walkTree_fold (path ++ [k]) v u, List.foldl_append]
    exact walkMembers_fold path ms _
end
end

/-- **C57** On a text whose containers are non-empty with distinct keys, `Walk` calls a
callback that returns no error exactly once per scalar, in document order, with the last
entry of its path, its content and its path, whatever the callback answers. -/
theorem C57_walk {σ : Type} (d : Doc) (hd : d.wf) (hl : (d.render.length : Int) ≤ 9223372036854775807)
    (hc : d.root.isContainer) (hw : d.root.walkable) (isFloat : Bytes → Bool) (f : σ → Bytes → Bytes → List Bytes → σ)
    (b : σ → Bytes → Bytes → List Bytes → Bool) (u : σ) :
    Walk isFloat d.render (fun u k v p => .ret (f u k v p) (b u k v p) none) u =
      .done ((d.root.leaves []).foldl (fun u l => f u (l.1.getLast?.getD []) l.2 l.1) u) none := by
  rw [C57_walk_exact d hd hl hc hw, walkTree_fold]

/-- **C57** What a callback that keeps its arguments has in the end. -/
theorem C57_collect (d : Doc) (hd : d.wf) (hl : (d.render.length : Int) ≤ 9223372036854775807)
    (hc : d.root.isContainer) (hw : d.root.walkable) (isFloat : Bytes → Bool) :
    Walk isFloat d.render (fun (u : List (Bytes × Bytes × List Bytes)) k v p => .ret (u ++ [(k, v, p)]) true none) [] =
      .done ((d.root.leaves []).map fun l => (l.1.getLast?.getD [], l.2, l.1)) none := by
  rw [C57_walk d hd hl hc hw isFloat (fun (u : List (Bytes × Bytes × List Bytes)) k v p => u ++ [(k, v, p)]) (fun _ _ _ _ => true)]
  congr 1
  have : ∀ (ls : List (List Text × Text)) (u : List (Bytes × Bytes × List Bytes)),
      ls.foldl (fun u l => u ++ [(l.1.getLast?.getD [], l.2, l.1)]) u = u ++ ls.map fun l => (l.1.getLast?.getD [], l.2, l.1) := by
    intro ls
    induction ls with
    | nil => simp
    | cons l ls ih => intro u; simp [ih]
  simpa using this (d.root.leaves []) []

mutual
theorem leaves_get (d : Doc) (hm : ∀ (p : List Text) (g : Text) (es : List (Elem Json)), d.get? p = some (.arr g es) →
    (es.length : Int) ≤ 9223372036854775807) : ∀ (w : Json) (path : List Text), d.get? path = some w → w.walkable = true →
    ∀ l ∈ w.leaves path, ∃ x, d.get? l.1 = some x ∧ x.isContainer = false ∧ x.content = l.2 ∧ path <+: l.1
  | .lit t, path, h, _ => by
    intro l hl
    simp only [Json.leaves, List.mem_singleton] at hl
    subst hl
    exact ⟨_, h, rfl, render_lit t, List.prefix_rfl⟩
  | .str raw, path, h, _ => by
    intro l hl
    simp only [Json.leaves, List.mem_singleton] at hl
    subst hl
    exact ⟨_, h, rfl, rfl, List.prefix_rfl⟩
  | .arr g es, path, h, hw => by
    simp only [Json.walkable, Bool.and_eq_true] at hw
    rw [Json.leaves]
    exact leavesElems_get d hm path g es [] es h rfl hw.2
  | .obj g ms, path, h, hw => by
    simp only [Json.walkable, Bool.and_eq_true, decide_eq_true_eq] at hw
    rw [Json.leaves]
    exact leavesMembers_get d hm path g ms [] ms h rfl hw.1.2 hw.2
theorem leavesElems_get (d : Doc) (hm : ∀ (p : List Text) (g : Text) (es : List (Elem Json)), d.get? p = some (.arr g es) →
    (es.length : Int) ≤ 9223372036854775807) (path : List Text) (g : Text) (all : List (Elem Json)) :
    ∀ (xs ys : List (Elem Json)), d.get? path = some (.arr g all) → all = xs ++ ys → walkableElems ys = true →
    ∀ l ∈ leavesElems path xs.length ys, ∃ x, d.get? l.1 = some x ∧ x.isContainer = false ∧ x.content = l.2 ∧ path <+: l.1
  | xs, [], _, _, _ => by simp [leavesElems]
  | xs, ⟨a, v, r⟩ :: ys, h, e, hw => by
    simp only [walkableElems, Bool.and_eq_true] at hw
    have hlt : xs.length < all.length := by rw [e]; simp
    have hg := get_elem h (n := xs.length) (e := ⟨a, v, r⟩) (by have := hm _ _ _ h; omega) (by rw [e]; simp)
    have h2 := leavesElems_get d hm path g all (xs ++ [⟨a, v, r⟩]) ys h (by simp [e]) hw.2
    have h1 := leaves_get d hm v _ hg hw.1
    intro l hl
    rw [leavesElems, List.mem_append] at hl
    rcases hl with hl | hl
    · obtain ⟨x, a1, a2, a3, a4⟩ := h1 l hl
      exact ⟨x, a1, a2, a3, (List.prefix_append _ _).trans a4⟩
    · exact h2 l (by simpa using hl)
theorem leavesMembers_get (d : Doc) (hm : ∀ (p : List Text) (g : Text) (es : List (Elem Json)), d.get? p = some (.arr g es) →
    (es.length : Int) ≤ 9223372036854775807) (path : List Text) (g : Text) (all : List (Member Json)) :
    ∀ (xs ys : List (Member Json)), d.get? path = some (.obj g all) → all = xs ++ ys → (all.map Member.key).Nodup →
    walkableMembers ys = true →
    ∀ l ∈ leavesMembers path ys, ∃ x, d.get? l.1 = some x ∧ x.isContainer = false ∧ x.content = l.2 ∧ path <+: l.1
  | xs, [], _, _, _, _ => by simp [leavesMembers]
  | xs, ⟨a, k, m, b, v, r⟩ :: ys, h, e, hn, hw => by
    simp only [walkableMembers, Bool.and_eq_true] at hw
    have hg := get_member h (n := xs.length) (m := ⟨a, k, m, b, v, r⟩) hn (by rw [e]; simp)
    have h2 := leavesMembers_get d hm path g all (xs ++ [⟨a, k, m, b, v, r⟩]) ys h (by simp [e]) hn hw.2
    have h1 := leaves_get d hm v _ hg hw.1
    intro l hl
    rw [leavesMembers, List.mem_append] at hl
    rcases hl with hl | hl
    · obtain ⟨x, a1, a2, a3, a4⟩ := h1 l hl
      exact ⟨x, a1, a2, a3, (List.prefix_append _ _).trans a4⟩
    · exact h2 l hl
end

theorem small_arrays {d : Doc} (hd : d.wf) (hl : (d.render.length : Int) ≤ 9223372036854775807) (p : List Text) (g : Text)
    (es : List (Elem Json)) (h : d.get? p = some (.arr g es)) : (es.length : Int) ≤ 9223372036854775807 := by
  have hwf : (Json.arr g es).wf := get_wf p (doc_wf.1 hd).2.1 h
  have h1 := elems_count (wf_arr.1 hwf).2
  obtain ⟨_, _, hs, -⟩ := valueStart_ok hd h
  have h2 := hs.len
  rw [render_arr] at h2
  cases he : es.isEmpty with
  | true => simp [List.isEmpty_iff.1 he]
  | false =>
    simp [he] at h2
    omega

/-- **C57** `Get` of each path that `Walk` reports returns the text it reports with it. -/
theorem C57_get (d : Doc) (hd : d.wf) (hl : (d.render.length : Int) ≤ 9223372036854775807)
    (hc : d.root.isContainer) (hw : d.root.walkable) :
    ∀ l ∈ d.root.leaves [], Get d.render l.1 = .ok l.2 := by
  intro l h
  obtain ⟨x, h1, h2, h3, -⟩ := leaves_get d (small_arrays hd hl) d.root [] rfl hw l h
  have hne : l.1 ≠ [] := by
    intro e
    rw [e] at h1
    cases h1
    rw [hc] at h2
    cases h2
  rw [get_ok hd hne h1, h3]

/-- **C57** A text that is one scalar: one call, with the whole text, an empty key and an empty
path. -/
theorem C57_scalar {σ : Type} (d : Doc) (hd : d.wf) (hc : d.root.isContainer = false) (isFloat : Bytes → Bool)
    (cb : σ → Bytes → Bytes → List Bytes → Cb σ) (u : σ) :
    Walk isFloat d.render cb u = callLeaf cb [] d.render u := by
  obtain ⟨w, h, hc⟩ : ∃ w, d.get? [] = some w ∧ w.isContainer = false := ⟨d.root, rfl, hc⟩
  rw [Walk, walk, getType_ok hd h isFloat]
  cases w with
  | arr g es => cases hc
  | obj g ms => cases hc
  | str raw => rfl
  | lit t =>
    simp only
    split
    · rename_i x; revert x; repeat' split
      all_goals intro x; cases x
    · rename_i x; revert x; repeat' split
      all_goals intro x; cases x
    · rename_i x; revert x; repeat' split
      all_goals intro x; cases x
    · rename_i x; revert x; repeat' split
      all_goals intro x; cases x
    · rfl

namespace Sample
/-- `{ "a":[1, {"b\"":"x"}] ,"c":null}` -/
def tour : Doc := ⟨[], .obj [] [
  ⟨s " ", s "a", [], [], .arr [] [el (.lit (s "1")), ⟨s " ", .obj [] [mem (s "b\\\"") (.str (s "x"))], []⟩], s " "⟩,
  mem (s "c") (.lit (s "null"))], []⟩
end Sample

example : Sample.tour.wf ∧ (Sample.tour.render.length : Int) ≤ 9223372036854775807 ∧ Sample.tour.root.isContainer ∧ Sample.tour.root.walkable ∧
    Sample.tour.root.leaves [] = [([str "a", str "0"], str "1"), ([str "a", str "1", str "b\\\""], str "x"), ([str "c"], str "null")] ∧
    Walk (fun _ => false) Sample.tour.render
      (fun (u : List (Bytes × Bytes × List Bytes)) k v p => .ret (u ++ [(k, v, p)]) true none) [] =
      .done [(str "0", str "1", [str "a", str "0"]), (str "b\\\"", str "x", [str "a", str "1", str "b\\\""]),
        (str "c", str "null", [str "c"])] none := by decide +kernel

/-- An answer of `false` does not end the walk, and the error for the last member of an object
is lost. -/
theorem C57_not_stopped :
    Walk (fun _ => false) Sample.tour.render (fun (n : Nat) _ _ _ => .ret (n + 1) false none) 0 = .done 3 none ∧
    Walk (fun _ => false) Sample.tour.render (fun (n : Nat) k _ _ => .ret (n + 1) true (if k = str "c" then some .empty else none)) 0 =
      .done 3 none := by decide +kernel

/-- Outside the property: with a repeated key `Walk` reports the first value twice, and it ends
with an error at a root object without members. -/
theorem C57_outside :
    Walk (fun _ => false) (str "{\"a\":1,\"a\":2}") (fun (u : List Bytes) _ v _ => .ret (u ++ [v]) true none) [] =
      .done [str "1", str "1"] none ∧
    Walk (fun _ => false) (str "{}") (fun (u : List Bytes) _ v _ => .ret (u ++ [v]) true none) [] = .done [] (some .empty) := by
  decide +kernel

end Jin

import Verif.Proof.ParserSync
import Verif.Proof.AddIns
/-!
# Proof.ParserMut — the `Parser` mutators keep the tree and the text in step
-/

namespace Jin
open Spec

/-- The parser holds the text of `d` and a tree that shows it. -/
structure Sync (p : Parser) (d : Doc) : Prop where
  json : p.json = d.render
  wf : d.wf
  container : d.root.isContainer
  kids : Kids p.core.down d.root

/-! ### The nodes of a container by its entries -/

/-- The label of an entry at position `k`. -/
def entLabel (k : Nat) (e : Entry) : Bytes := e.key.getD (itoa k)

/-- `ds` are the nodes of the entries `xs` from position `k` on. -/
def KidsL (k : Nat) : List Node → List Entry → Prop
  | [], [] => True
  | d :: ds, x :: xs => d.label = entLabel k x ∧ Agree d x.val ∧ KidsL (k + 1) ds xs
  | _, _ => False

theorem kidsE_iff : ∀ {es : List (Elem Json)} {k : Nat} {ds : List Node},
    KidsE k ds es ↔ KidsL k ds (es.map fun e => .elem e.v)
  | [], k, ds => by cases ds <;> simp [KidsE, KidsL]
  | e :: es, k, ds => by
    rw [kidsE_cons]
    cases ds with
    | nil => simp [KidsL]
    | cons d ds =>
      simp only [List.map_cons, KidsL, ← kidsE_iff (es := es)]
      constructor
      · rintro ⟨_, _, h, h1, h2, h3⟩; cases h; exact ⟨h1, h2, h3⟩
      · rintro ⟨h1, h2, h3⟩; exact ⟨_, _, rfl, h1, h2, h3⟩

theorem kidsM_iff : ∀ {ms : List (Member Json)} (k : Nat) {ds : List Node},
    KidsM ds ms ↔ KidsL k ds (ms.map fun m => .member m.key m.m m.l2 m.v)
  | [], k, ds => by cases ds <;> simp [KidsM, KidsL]
  | m :: ms, k, ds => by
    rw [kidsM_cons]
    cases ds with
    | nil => simp [KidsL]
    | cons d ds =>
      simp only [List.map_cons, KidsL, ← kidsM_iff (ms := ms)]
      constructor
      · rintro ⟨_, _, h, h1, h2, h3⟩; cases h; exact ⟨h1, h2, h3⟩
      · rintro ⟨h1, h2, h3⟩; exact ⟨_, _, rfl, h1, h2, h3⟩

theorem kids_of_entries {ds : List Node} {w : Json} (hc : w.isContainer) (h : KidsL 0 ds w.entries) : Kids ds w := by
  cases w with
  | lit _ => simp [Json.isContainer] at hc
  | str _ => simp [Json.isContainer] at hc
  | arr g es => rw [Kids]; exact .inr (kidsE_iff.2 h)
  | obj g ms => rw [Kids]; exact (kidsM_iff 0).2 h

theorem kidsL_length : ∀ {ds : List Node} {xs : List Entry} {k : Nat}, KidsL k ds xs → ds.length = xs.length
  | [], [], _, _ => rfl
  | d :: ds, x :: xs, k, h => by simp [kidsL_length h.2.2]
  | [], _ :: _, _, h => h.elim
  | _ :: _, [], _, h => h.elim

theorem kidsL_snoc {d : Node} {x : Entry} (ha : Agree d x.val) : ∀ {ds : List Node} {xs : List Entry} {k : Nat},
    KidsL k ds xs → d.label = entLabel (k + xs.length) x → KidsL k (ds ++ [d]) (xs ++ [x])
  | [], [], k, _, hl => ⟨hl, ha, trivial⟩
  | e :: ds, y :: xs, k, h, hl =>
    ⟨h.1, h.2.1, kidsL_snoc ha h.2.2 (by rw [hl, List.length_cons]; congr 1; omega)⟩
  | [], _ :: _, _, h, _ => h.elim
  | _ :: _, [], _, h, _ => h.elim

theorem kidsL_filter {q : Bytes} : ∀ {ds : List Node} {xs : List Entry} {k n : Nat}, KidsL k ds xs → n < xs.length →
    (∀ i x, xs[i]? = some x → (entLabel (k + i) x = q ↔ i = n)) → (∀ i x, n < i → xs[i]? = some x → x.key.isSome) →
    KidsL k (ds.filter fun d => d.label != q) (xs.eraseIdx n)
  | [], [], _, _, _, hn, _, _ => by simp at hn
  | d :: ds, x :: xs, k, n, h, hn, hq, hi => by
    obtain ⟨h1, h2, h3⟩ := h
    cases n with
    | zero =>
      have hd : d.label = q := by rw [h1]; exact (hq 0 x rfl).2 rfl
      rw [List.filter_cons_of_neg (by simp [hd]), List.eraseIdx_cons_zero]
      -- nothing else has the label, and the labels below do not depend on the position
      have keep : ∀ {ds : List Node} {xs : List Entry} {k : Nat} (j : Nat), KidsL k ds xs → (∀ i x, xs[i]? = some x → entLabel (k + i) x ≠ q) →
          (∀ x ∈ xs, x.key.isSome) → KidsL j (ds.filter fun d => d.label != q) xs := by
        intro ds
        induction ds with
        | nil => intro xs k j h _ _; cases xs with
          | nil => trivial
          | cons _ _ => exact h.elim
        | cons d ds ih =>
          intro xs k j h hne hs
          cases xs with
          | nil => exact h.elim
          | cons x xs =>
            have : d.label ≠ q := by rw [h.1]; exact hne 0 x rfl
            rw [List.filter_cons_of_pos (by simpa using this)]
            have hx := hs x (by simp)
            refine ⟨?_, h.2.1, ih (j + 1) h.2.2 (fun i y hy => ?_) (fun y hy => hs y (by simp [hy]))⟩
            · rw [h.1]
              unfold entLabel
              cases hk : x.key with
              | none => rw [hk] at hx; cases hx
              | some _ => rfl
            · have := hne (i + 1) y (by simpa using hy)
              rwa [show k + (i + 1) = k + 1 + i by omega] at this
      refine keep k h3 (fun i y hy he => ?_) (fun y hy => ?_)
      · have := (hq (i + 1) y (by simpa using hy)).1 (by rw [← he]; congr 1; omega)
        omega
      · obtain ⟨i, hy⟩ := List.getElem?_of_mem hy
        exact hi (i + 1) y (by omega) (by simpa using hy)
    | succ n =>
      have hd : d.label ≠ q := by
        rw [h1]; intro e
        have := (hq 0 x rfl).1 e
        omega
      rw [List.filter_cons_of_pos (by simpa using hd), List.eraseIdx_cons_succ]
      refine ⟨h1, h2, kidsL_filter h3 (by simpa using hn) (fun i y hy => ?_) (fun i y hi' hy => hi (i + 1) y (by omega) (by simpa using hy))⟩
      have := hq (i + 1) y (by simpa using hy)
      rw [show k + 1 + i = k + (i + 1) by omega, this]
      omega
  | [], _ :: _, _, _, h, _, _, _ => h.elim
  | _ :: _, [], _, _, h, _, _, _ => h.elim

theorem kidsM_rename {q new : Bytes} : ∀ {ms : List (Member Json)} {ds : List Node} {n : Nat}, KidsM ds ms → memberIdx ms q = some n →
    KidsM (replaceFirst (fun d => d.label == q) (·.setLabel new) ds) (ms.modify n fun m => { m with key := new })
  | [], _, _, _, h => by simp [memberIdx] at h
  | m :: ms, ds, n, h, hq => by
    obtain ⟨d0, rest, rfl, h1, h2, h3⟩ := kidsM_cons.1 h
    unfold memberIdx at hq
    rw [List.findIdx?_cons] at hq
    by_cases hk : m.key = q
    · simp only [hk, beq_self_eq_true, if_true, Option.some.injEq] at hq
      subst hq
      simp only [replaceFirst, h1, hk, beq_self_eq_true, if_true, List.modify_zero_cons]
      exact kidsM_cons.2 ⟨_, rest, rfl, by cases d0; rfl, by cases d0; exact h2, h3⟩
    · have hb : (m.key == q) = false := by simpa using hk
      simp only [hb, Bool.false_eq_true, if_false] at hq
      cases hi : ms.findIdx? (fun m => m.key == q) with
      | none => rw [hi] at hq; simp at hq
      | some j =>
        rw [hi] at hq
        simp only [Option.map_some, Option.some.injEq] at hq
        subst hq
        simp only [replaceFirst, h1, hb, Bool.false_eq_true, if_false, List.modify_succ_cons]
        exact kidsM_cons.2 ⟨d0, _, rfl, h1, h2, kidsM_rename h3 hi⟩

/-! ### Refreshing -/

theorem refresh_ok {json : Bytes} {val : List Bytes → Bytes} : ∀ {qs : List (List Bytes)} {n : Node},
    (∀ q ∈ qs, Jin.Get json q = .ok (val q)) → refresh json qs n = .ok (fixAll val qs n, none)
  | [], _, _ => rfl
  | q :: qs, n, h => by
    rw [refresh, h q (by simp)]
    exact refresh_ok fun q hq => h q (by simp [hq])

theorem refreshQuiet_ok {json : Bytes} {val : List Bytes → Bytes} : ∀ {qs : List (List Bytes)} {n : Node},
    (∀ q ∈ qs, Jin.Get json q = .ok (val q)) → refreshQuiet json qs n = .ok (fixAll val qs n)
  | [], _, _ => rfl
  | q :: qs, n, h => by
    rw [refreshQuiet, h q (by simp)]
    exact refreshQuiet_ok fun q hq => h q (by simp [hq])

theorem finish_ok {json : Bytes} {val : List Bytes → Bytes} {qs : List (List Bytes)} {n : Node}
    (h : ∀ q ∈ qs, Jin.Get json q = .ok (val q)) : finish json n qs = .done ⟨fixAll val qs n, json⟩ none := by
  rw [finish, refresh_ok h]

theorem prefixes_succ (path : List Bytes) (c : Nat) : prefixes path 0 c = prefixes path 1 c ++ [[]] := by
  unfold prefixes
  rw [show c + 1 - 0 = c + 1 by omega, show c + 1 - 1 = c by omega, List.range'_succ]
  simp

theorem prefixes_cons (p : Bytes) (ps : List Bytes) (c : Nat) :
    prefixes (p :: ps) 1 (c + 1) = (prefixes ps 0 c).map (p :: ·) := by
  unfold prefixes
  rw [show c + 1 + 1 - 1 = c + 1 by omega, show c + 1 - 0 = c + 1 by omega, List.map_reverse, List.map_map]
  congr 1
  have : ∀ n k, (List.range' (k + 1) n).map (fun i => (p :: ps).take i) = (List.range' k n).map ((p :: ·) ∘ fun i => ps.take i) := by
    intro n
    induction n with
    | zero => intro k; rfl
    | succ n ih => intro k; simp [List.range'_succ, ih (k + 1)]
  exact this (c + 1) 0

theorem pres_full : ∀ path : List Bytes, pres [[]] path = prefixes path 0 path.length
  | [] => rfl
  | p :: ps => by rw [pres, pres_full ps, List.length_cons, prefixes_succ (p :: ps), prefixes_cons]

theorem pres_above : ∀ {path : List Bytes}, path ≠ [] → pres [] path = prefixes path 0 (path.length - 1)
  | [], h => absurd rfl h
  | [p], _ => rfl
  | p :: q :: ps, _ => by
    rw [pres, pres_above (path := q :: ps) (by simp), prefixes_succ (p :: q :: ps)]
    simp only [List.length_cons, Nat.add_sub_cancel]
    rw [prefixes_cons]

theorem prefixes_ne {path q : List Bytes} {c : Nat} (hp : path ≠ []) (h : q ∈ prefixes path 1 c) : q ≠ [] := by
  simp only [prefixes, List.mem_reverse, List.mem_map, List.mem_range'_1] at h
  obtain ⟨i, hi, rfl⟩ := h
  cases path with
  | nil => exact absurd rfl hp
  | cons p ps => cases i with
    | zero => omega
    | succ i => simp

/-- The values at the prefixes of the changed path are containers. -/
theorem pres_container {g : Json → Json} {tgt : List (List Bytes)} : ∀ (path : List Text) {v w : Json}, v.get? path = some w →
    (tgt = [] ∨ tgt = [[]] ∧ (g w).isContainer) → ∀ q ∈ pres tgt path, ∃ x, (v.upd g path).get? q = some x ∧ x.isContainer
  | [], v, w, hg, ht, q, hq => by
    simp only [Json.get?, Option.some.injEq] at hg
    subst hg
    simp only [pres] at hq
    rcases ht with rfl | ⟨rfl, ht⟩
    · simp at hq
    · simp only [List.mem_singleton] at hq
      subst hq
      exact ⟨g v, by simp [Json.upd, Json.get?], ht⟩
  | p :: ps, v, w, hg, ht, q, hq => by
    obtain ⟨c, hc, hg⟩ := get_cons hg
    simp only [pres, List.mem_append, List.mem_map, List.mem_singleton] at hq
    rw [Json.upd]
    rcases hq with ⟨q, hq, rfl⟩ | rfl
    · obtain ⟨x, h1, h2⟩ := pres_container ps hg ht q hq
      exact ⟨x, by rw [Json.get?, child_updChild hc]; exact h1, h2⟩
    · exact ⟨_, rfl, (child_container hc _).2⟩

theorem container_content {v : Json} (h : v.isContainer) : v.content = v.render := by
  cases v <;> first | rfl | simp [Json.isContainer] at h

theorem updAt_down {f : Node → Node} (hf : ∀ n n' : Node, n.down = n'.down → (f n).down = (f n').down) {n n' : Node}
    (h : n.down = n'.down) (q : List Bytes) : (n.updAt f q).down = (n'.updAt f q).down := by
  cases q with
  | nil => exact hf n n' h
  | cons p ps => simp [Node.updAt, h]

theorem fixAll_down (val : List Bytes → Bytes) : ∀ (qs : List (List Bytes)) {n n' : Node}, n.down = n'.down →
    (fixAll val qs n).down = (fixAll val qs n').down
  | [], _, _, h => h
  | q :: qs, n, n', h => fixAll_down val qs (updAt_down (f := (·.setValue (val q))) (by simp) h q)

/-- A mutator that changes the node at `path` by `f`, has the text of the document with the value
there changed by `g`, and refreshes the nodes above keeps the two in step. -/
theorem sync_upd {p : Parser} {d : Doc} {path : List Text} {w : Json} {nd : Node} {f : Node → Node} {g : Json → Json}
    {tgt : List (List Bytes)} {c : Nat} (hs : Sync p d) (hg : d.get? path = some w) (hw : p.core.walk path = .ok nd)
    (hfl : ∀ n, (f n).label = n.label) (hfd : ∀ n n' : Node, n.down = n'.down → (f n).down = (f n').down)
    (hwf : (g w).wf) (hcon : path = [] → (g w).isContainer)
    (ht : tgt = [] ∧ path ≠ [] ∧ c = path.length - 1 ∧ (Agree nd w → Agree (f nd) (g w)) ∨
      tgt = [[]] ∧ (g w).isContainer ∧ c = path.length ∧ (Kids nd.down w → Kids (f nd).down (g w))) :
    (∀ q ∈ prefixes path 1 c, Jin.Get (d.upd g path).render q = .ok (textAt (d.upd g path).root q)) ∧
    Sync ⟨fixAll (textAt (d.upd g path).root) (prefixes path 1 c) (p.core.updAt f path), (d.upd g path).render⟩ (d.upd g path) := by
  have hpres : pres tgt path = prefixes path 1 c ++ [[]] := by
    rcases ht with ⟨rfl, hp, rfl, -⟩ | ⟨rfl, -, rfl, -⟩
    · rw [pres_above hp, prefixes_succ]
    · rw [pres_full, prefixes_succ]
  have hd' : (d.upd g path).wf := doc_upd_wf hs.wf hg hwf
  have hgets : ∀ q ∈ prefixes path 1 c, Jin.Get (d.upd g path).render q = .ok (textAt (d.upd g path).root q) := by
    intro q hq
    have hpn : path ≠ [] := by
      rintro rfl
      rcases ht with ⟨-, h, -⟩ | ⟨-, -, rfl, -⟩
      · exact h rfl
      · simp [prefixes] at hq
    obtain ⟨x, h1, h2⟩ := pres_container (g := g) (tgt := tgt) path hg (by
      rcases ht with ⟨h, -⟩ | ⟨h, h', -⟩
      · exact .inl h
      · exact .inr ⟨h, h'⟩) q (by rw [hpres]; simp [hq])
    rw [get_ok hd' (prefixes_ne hpn hq) h1, container_content h2]
    have h1' : (d.upd g path).root.get? q = some x := h1
    simp [textAt, h1']
  refine ⟨hgets, rfl, hd', ?_, ?_⟩
  · cases path with
    | nil =>
      have : d.root = w := by simpa [Doc.get?, Json.get?] using hg
      subst this
      exact hcon rfl
    | cons q qs =>
      obtain ⟨c, hc, -⟩ := get_cons hg
      show (d.root.upd g (q :: qs)).isContainer
      rw [Json.upd]
      exact (child_container hc _).2
  · -- give the root its value, apply the frame, forget it again
    let n0 := p.core.setValue d.root.render
    have hn0 : Agree n0 d.root := ⟨⟨[], [], rfl, rfl, by simp [n0], fun _ => ⟨rfl, rfl⟩⟩, by simpa [n0] using hs.kids⟩
    have hdown : ∀ {n n' : Node}, n.down = n'.down → ∀ q : List Text, q ≠ [] → n.walk q = n'.walk q := by
      intro n n' h q hq
      cases q with
      | nil => exact absurd rfl hq
      | cons a b => rw [Node.walk, Node.walk, h]
    have key : Kids (fixAll (textAt (d.root.upd g path)) (pres tgt path) (n0.updAt f path)).down (d.root.upd g path) := by
      have hk0 : Kids nd.down w → Agree (nd.setValue w.render) w := fun h => ⟨⟨[], [], rfl, rfl, by simp, fun _ => ⟨rfl, rfl⟩⟩, by simpa using h⟩
      by_cases hp : path = []
      · subst hp
        rcases ht with ⟨-, h, -⟩ | ⟨rfl, h1, -, h2⟩
        · exact absurd rfl h
        · have : d.root = w := by simpa [Doc.get?, Json.get?] using hg
          subst this
          rw [Node.walk] at hw
          cases hw
          simp only [pres, Node.updAt, fixAll, List.foldl_cons, List.foldl_nil, setValue_down, Json.upd]
          rw [hfd n0 p.core (by simp [n0])]
          exact h2 hs.kids
      · have hw0 : n0.walk path = .ok nd := by rw [← hw]; exact hdown (by simp [n0]) path hp
        refine (agree_upd (g := g) hfl path hn0 hg hw0 ?_ (ht.imp (·.1) (·.1))).2
        rcases ht with ⟨rfl, -, -, h⟩ | ⟨rfl, h1, -, h2⟩
        · exact h
        · intro ha
          refine ⟨⟨[], [], rfl, rfl, by simp [fixAll, Node.updAt], fun _ => ⟨rfl, rfl⟩⟩, ?_⟩
          simpa [fixAll, Node.updAt] using h2 ha.2
    show Kids (fixAll (textAt (d.root.upd g path)) (prefixes path 1 c) (p.core.updAt f path)).down (d.root.upd g path)
    rw [hpres] at key
    have e : ∀ n, (fixAll (textAt (d.root.upd g path)) (prefixes path 1 c ++ [[]]) n).down = (fixAll (textAt (d.root.upd g path)) (prefixes path 1 c) n).down := by
      intro n
      rw [fixAll, List.foldl_append]
      simp [Node.updAt, fixAll]
    rw [e] at key
    rwa [fixAll_down _ _ (updAt_down hfd (n := p.core) (n' := n0) (by simp [n0]) path)]

/-- A change that depends on the node found. -/
theorem updAt_walk {f : Node → Node} : ∀ (path : List Text) {n nd : Node}, n.walk path = .ok nd →
    n.updAt (fun _ => f nd) path = n.updAt f path
  | [], n, nd, h => by rw [Node.walk] at h; cases h; rfl
  | p :: ps, n, nd, h => by
    rw [Node.walk] at h
    cases hf : n.down.find? (fun d => d.label == p) with
    | none => rw [hf] at h; cases h
    | some d =>
      rw [hf] at h
      rw [Node.updAt, Node.updAt, replaceFirst_find hf, replaceFirst_find (f := fun d => d.updAt f ps) hf, updAt_walk ps h]

/-- Changing the last node of a path is a change of the one before it. -/
theorem updAt_snoc {f : Node → Node} (q : Bytes) : ∀ (path : List Text) (n : Node),
    n.updAt f (path ++ [q]) = n.updAt (fun u => u.setDown (replaceFirst (fun d => d.label == q) f u.down)) path
  | [], n => by simp [Node.updAt]
  | p :: ps, n => by
    rw [List.cons_append, Node.updAt, Node.updAt]
    congr 2
    funext d
    exact updAt_snoc q ps d

theorem walk_snoc {q : Bytes} : ∀ (path : List Text) {n nd : Node}, n.walk (path ++ [q]) = .ok nd →
    ∃ u, n.walk path = .ok u ∧ u.down.find? (fun d => d.label == q) = some nd
  | [], n, nd, h => by
    rw [List.nil_append, Node.walk] at h
    cases hf : n.down.find? (fun d => d.label == q) with
    | none => rw [hf] at h; cases h
    | some d =>
      rw [hf] at h
      simp only [Node.walk] at h
      cases h
      exact ⟨n, by rw [Node.walk], hf⟩
  | p :: ps, n, nd, h => by
    rw [List.cons_append, Node.walk] at h
    cases hf : n.down.find? (fun d => d.label == p) with
    | none => rw [hf] at h; cases h
    | some d =>
      rw [hf] at h
      obtain ⟨u, h1, h2⟩ := walk_snoc ps h
      exact ⟨u, by rw [Node.walk, hf]; exact h1, h2⟩

end Jin

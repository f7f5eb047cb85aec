import Verif.Proof.Edges
/-!
# Proof.Entries — containers rebuilt from a list of entries
-/

namespace Jin
open Spec

/-- An entry with the whitespace around it. -/
structure REnt where
  l : Text
  e : Entry
  r : Text

def rents : Json → List REnt
  | .arr _ es => es.map fun e => ⟨e.l, .elem e.v, e.r⟩
  | .obj _ ms => ms.map fun m => ⟨m.l, .member m.key m.m m.l2 m.v, m.r⟩
  | _ => []

/-- The text of an entry. -/
def Spec.Entry.text : Entry → Text
  | .elem v => v.render
  | .member k m l2 v => 34 :: (k ++ (34 :: (m ++ (58 :: (l2 ++ v.render)))))

def Spec.Entry.ok : Entry → Prop
  | .elem v => v.wf
  | .member k m l2 v => strOk k ∧ Ws m ∧ Ws l2 ∧ v.wf

def REnt.ent (x : REnt) : Ent := ⟨x.l, x.e.text, x.r⟩

/-- The entry is of the sort the container holds. -/
def Fits (w : Json) : Entry → Prop
  | .elem _ => w.kind = .arr
  | .member _ _ _ _ => w.kind = .obj

def toElem : REnt → Elem Json
  | ⟨l, e, r⟩ => ⟨l, e.val, r⟩
def toMember : REnt → Member Json
  | ⟨l, .elem v, r⟩ => ⟨l, [], [], [], v, r⟩
  | ⟨l, .member k m l2 v, r⟩ => ⟨l, k, m, l2, v, r⟩

/-- A container of the kind of `w` with the given entries. -/
def build (w : Json) (gap : Text) (xs : List REnt) : Json :=
  match w with
  | .arr _ _ => .arr gap (xs.map toElem)
  | .obj _ _ => .obj gap (xs.map toMember)
  | w => w

theorem rents_ents (w : Json) : ents w = (rents w).map REnt.ent := by
  cases w <;> simp [ents, rents] <;> intro a _ <;> rfl

theorem rents_entries (w : Json) : w.entries = (rents w).map REnt.e := by
  cases w <;> simp [Json.entries, rents]

theorem rents_fit {w : Json} : ∀ x ∈ rents w, Fits w x.e := by
  intro x hx
  cases w <;> simp [rents] at hx
  · obtain ⟨e, -, rfl⟩ := hx; rfl
  · obtain ⟨e, -, rfl⟩ := hx; rfl

theorem kind_build (w : Json) (g xs) : (build w g xs).kind = w.kind := by cases w <;> rfl
theorem opn_build (w : Json) (g xs) : opnOf (build w g xs) = opnOf w := by cases w <;> rfl
theorem cls_build (w : Json) (g xs) : clsOf (build w g xs) = clsOf w := by cases w <;> rfl
theorem con_build (w : Json) (g xs) : (build w g xs).isContainer = w.isContainer := by cases w <;> rfl

theorem gap_build {w : Json} (hc : w.isContainer) (g xs) : gapOf (build w g xs) = g := by
  cases w <;> simp [Json.isContainer] at hc <;> rfl

theorem rents_build {w : Json} (hc : w.isContainer) {g xs} (h : ∀ x ∈ xs, Fits w x.e) : rents (build w g xs) = xs := by
  cases w with
  | lit t => simp [Json.isContainer] at hc
  | str t => simp [Json.isContainer] at hc
  | arr g' es =>
    simp only [build, rents, List.map_map]
    conv => rhs; rw [← List.map_id xs]
    apply List.map_congr_left
    intro x hx
    have := h x hx
    rcases x with ⟨l, e, r⟩
    cases e with
    | elem v => rfl
    | member k m l2 v => exact absurd this (by simp [Fits, Json.kind])
  | obj g' ms =>
    simp only [build, rents, List.map_map]
    conv => rhs; rw [← List.map_id xs]
    apply List.map_congr_left
    intro x hx
    have := h x hx
    rcases x with ⟨l, e, r⟩
    cases e with
    | elem v => exact absurd this (by simp [Fits, Json.kind])
    | member k m l2 v => rfl

theorem build_rents (w : Json) : build w (gapOf w) (rents w) = w := by
  cases w <;> simp [build, rents, gapOf, Function.comp_def, toElem, toMember, Entry.val]

theorem wf_rents {w : Json} (hc : w.isContainer) : w.wf ↔ Ws (gapOf w) ∧ ∀ x ∈ rents w, Ws x.l ∧ Ws x.r ∧ x.e.ok := by
  cases w with
  | lit t => simp [Json.isContainer] at hc
  | str t => simp [Json.isContainer] at hc
  | arr g es =>
    rw [wf_arr, wfElems_iff]
    simp only [gapOf, rents, List.mem_map, forall_exists_index, and_imp, forall_apply_eq_imp_iff₂, Entry.ok]
    constructor
    · rintro ⟨h1, h2⟩; exact ⟨h1, fun x hx => ⟨(h2 x hx).1, (h2 x hx).2.2, (h2 x hx).2.1⟩⟩
    · rintro ⟨h1, h2⟩; exact ⟨h1, fun x hx => ⟨(h2 x hx).1, (h2 x hx).2.2, (h2 x hx).2.1⟩⟩
  | obj g es =>
    rw [wf_obj, wfMembers_iff]
    simp only [gapOf, rents, List.mem_map, forall_exists_index, and_imp, forall_apply_eq_imp_iff₂, Entry.ok]
    constructor
    · rintro ⟨h1, h2⟩
      exact ⟨h1, fun x hx => ⟨(h2 x hx).1, (h2 x hx).2.2.2.2.2, (h2 x hx).2.1, (h2 x hx).2.2.1, (h2 x hx).2.2.2.1, (h2 x hx).2.2.2.2.1⟩⟩
    · rintro ⟨h1, h2⟩
      exact ⟨h1, fun x hx => ⟨(h2 x hx).1, (h2 x hx).2.2.1, (h2 x hx).2.2.2.1, (h2 x hx).2.2.2.2.1, (h2 x hx).2.2.2.2.2, (h2 x hx).2.1⟩⟩

/-- The text of a rebuilt container. -/
theorem render_build {w : Json} (hc : w.isContainer) {g xs} (h : ∀ x ∈ xs, Fits w x.e) :
    (build w g xs).render = opnOf w :: ((if xs.isEmpty then g else renderEnt (xs.map REnt.ent)) ++ [clsOf w]) := by
  rw [render_container (by rw [con_build]; exact hc), opn_build, cls_build, inner, rents_ents, rents_build hc h, gap_build hc]
  simp

/-- Split of the entries, whitespace and all. -/
theorem rents_split {w : Json} {xs : List Ent} {e : Ent} {ys : List Ent} (h : ents w = xs ++ e :: ys) :
    ∃ xs' e' ys', rents w = xs' ++ e' :: ys' ∧ xs = xs'.map REnt.ent ∧ e = e'.ent ∧ ys = ys'.map REnt.ent := by
  rw [rents_ents, List.map_eq_append_iff] at h
  obtain ⟨xs', r, h1, h2, h3⟩ := h
  rw [List.map_eq_cons_iff] at h3
  obtain ⟨e', ys', rfl, h4, h5⟩ := h3
  exact ⟨xs', e', ys', h1, h2.symm, h4.symm, h5.symm⟩

/-- What an entry list that is in order gives. -/
theorem build_ok {w : Json} (hc : w.isContainer) {g xs} (hg : Ws g) (h : ∀ x ∈ xs, Fits w x.e ∧ Ws x.l ∧ Ws x.r ∧ x.e.ok) :
    (build w g xs).wf ∧ (build w g xs).kind = w.kind ∧ (build w g xs).entries = xs.map REnt.e := by
  have hf : ∀ x ∈ xs, Fits w x.e := fun x hx => (h x hx).1
  refine ⟨?_, kind_build _ _ _, ?_⟩
  · rw [wf_rents (by rw [con_build]; exact hc), gap_build hc, rents_build hc hf]
    exact ⟨hg, fun x hx => (h x hx).2⟩
  · rw [rents_entries, rents_build hc hf]

theorem rents_all {w : Json} (hc : w.isContainer) (hw : w.wf) : ∀ x ∈ rents w, Fits w x.e ∧ Ws x.l ∧ Ws x.r ∧ x.e.ok :=
  fun x hx => ⟨rents_fit x hx, (wf_rents hc).1 hw |>.2 x hx⟩

theorem ws_append {a b : Text} : Ws (a ++ b) ↔ Ws a ∧ Ws b := by simp [Ws]

/-! ### Delete -/

theorem InPlace.delete {json path w A l x r B c c'} (h : InPlace json path w A l x r B c c') (hp : path ≠ []) :
    ((c = 91 ∨ c = 123) ∧ c + 2 = c' → Delete json path = .done (A ++ (c :: ((l ++ r) ++ (c' :: B)))) none) ∧
    ((c = 91 ∨ c = 123 ∨ c = 44) → c' = 44 → Delete json path = .done (A ++ (c :: (l ++ B))) none) ∧
    (c = 44 → (c' = 93 ∨ c' = 125) → Delete json path = .done (A ++ (r ++ (c' :: B))) none) := by
  obtain ⟨ks, s, e, h1, h2, -⟩ := h.found
  have key : space c = false → space c' = false → Delete json path =
      (if (c == 91 || c == 123) && c + 2 == c' then Mut.ofOut (replace json [] ((A.length + 1 + l.length : Nat) : Int) ((A.length + 1 + l.length + x.length : Nat) : Int))
          else if c' == 44 then Mut.ofOut (replace json [] ((A.length + 1 + l.length : Nat) : Int) (((A.length + 1 + l.length + x.length + r.length : Nat) : Int) + 1))
          else if c == 44 then Mut.ofOut (replace json [] (A.length : Int) ((A.length + 1 + l.length + x.length : Nat) : Int))
          else .done json (some (.badJSON ((A.length + 1 + l.length : Nat) : Int)))) := by
    intro hc hc'
    obtain ⟨g1, g2, g3⟩ := h.edges hc hc'
    unfold Delete
    rw [if_neg (by simpa using hp), h1]
    simp only [Mut.bindOut, h2, g1, idx_nat g2, idx_nat g3]
  refine ⟨?_, ?_, ?_⟩
  · rintro ⟨hc, hc'⟩
    have e1 : space c = false := by rcases hc with rfl | rfl <;> decide
    have e2 : space c' = false := by rw [← hc']; rcases hc with rfl | rfl <;> decide
    rw [key e1 e2, if_pos (by rcases hc with rfl | rfl <;> simp [hc'])]
    rw [replace_split (A := A ++ (c :: l)) (m := x) (B := r ++ (c' :: B)) (by rw [h.text]; simp) (by simp; omega) (by simp; omega)]
    simp [Mut.ofOut]
  · rintro hc rfl
    rw [key (by rcases hc with rfl | rfl | rfl <;> decide) (by decide), if_neg (by rcases hc with rfl | rfl | rfl <;> decide),
      if_pos (by decide)]
    rw [replace_split (A := A ++ (c :: l)) (m := x ++ (r ++ [44])) (B := B) (by rw [h.text]; simp) (by simp; omega) (by simp; omega)]
    simp [Mut.ofOut]
  · rintro rfl hc
    rw [key (by decide) (by rcases hc with rfl | rfl <;> decide), if_neg (by rcases hc with rfl | rfl <;> decide),
      if_neg (by rcases hc with rfl | rfl <;> decide), if_pos (by decide)]
    rw [replace_split (A := A) (m := 44 :: (l ++ x)) (B := r ++ (c' :: B)) (by rw [h.text]; simp) (by simp) (by simp; omega)]
    simp [Mut.ofOut]

/-- The entries without the one between `xs` and `ys`; the whitespace around it goes to
its neighbour. -/
def dropEnt (xs : List REnt) (e : REnt) : List REnt → List REnt
  | y :: ys => xs ++ { y with l := e.l ++ y.l } :: ys
  | [] =>
    match xs.getLast? with
    | some x => xs.dropLast ++ [{ x with r := x.r ++ e.r }]
    | none => []

theorem dropEnt_entries (xs : List REnt) (e : REnt) (ys : List REnt) : (dropEnt xs e ys).map REnt.e = xs.map REnt.e ++ ys.map REnt.e := by
  unfold dropEnt
  cases ys with
  | cons y ys => simp
  | nil =>
    rcases List.eq_nil_or_concat xs with rfl | ⟨xs, x, rfl⟩
    · rfl
    · simp

theorem dropEnt_all {P : REnt → Prop} (xs : List REnt) (e : REnt) (ys : List REnt) (h : ∀ x ∈ xs ++ e :: ys, P x)
    (hl : ∀ a b, P a → P b → P { b with l := a.l ++ b.l }) (hr : ∀ a b, P a → P b → P { b with r := b.r ++ a.r }) :
    ∀ x ∈ dropEnt xs e ys, P x := by
  have he := h e (by simp)
  intro x hx
  unfold dropEnt at hx
  cases ys with
  | cons y ys =>
    simp only [List.mem_append, List.mem_cons] at hx
    rcases hx with hx | rfl | hx
    · exact h x (by simp [hx])
    · exact hl _ _ he (h y (by simp))
    · exact h x (by simp [hx])
  | nil =>
    rcases List.eq_nil_or_concat xs with rfl | ⟨xs, z, rfl⟩
    · simp at hx
    · simp at hx
      rcases hx with hx | rfl
      · exact h x (by simp [hx])
      · exact hr _ _ he (h z (by simp))

/-- `Delete` at a resolving path. -/
theorem delete_ok_open {d : Doc} {p : List Text} {w : Json} {q : Text} {n : Nat} (hd : d.opens) (h : d.get? p = some w)
    (hq : w.slot? q = some n) : ∃ xs e ys, rents w = xs ++ e :: ys ∧ xs.length = n ∧ w.wf ∧ w.isContainer ∧
      Delete d.render (p ++ [q]) = .done (d.set p (build w (e.l ++ e.r) (dropEnt xs e ys))).render none := by
  obtain ⟨A, B, xs, e, ys, h1, h2, h3, h4, hw, hcon, hpl⟩ := entry_place_open hd h hq
  obtain ⟨xs', e', ys', r1, rfl, rfl, rfl⟩ := rents_split h3
  refine ⟨xs', e', ys', r1, by simpa using h4, hw, hcon, ?_⟩
  obtain ⟨k1, k2, k3⟩ := hpl.delete (by simp)
  have hfit : ∀ x ∈ dropEnt xs' e' ys', Fits w x.e := by
    refine dropEnt_all (P := fun x => Fits w x.e) xs' e' ys' ?_ (fun _ _ _ h => h) (fun _ _ _ h => h)
    intro x hx
    exact rents_fit x (by rw [r1]; exact hx)
  have hset : ∀ y, (d.set p y).render = A ++ (y.render ++ B) := fun y => h2 (fun _ => y)
  rw [hset, render_build hcon hfit]
  have hopn := opn_cls (v := w)
  cases ys' with
  | cons y ys' =>
    have hne : (List.map REnt.ent (y :: ys')) ≠ [] := by simp
    rw [k2 (by split; · exact hopn.1.imp id Or.inl
               · simp) (by rw [if_neg hne])]
    have hemp : (dropEnt xs' e' (y :: ys')).isEmpty = false := by simp [dropEnt]
    simp only [hemp, Bool.false_eq_true, if_false, if_neg hne]
    simp only [dropEnt, List.map_append, List.map_cons, renderEnt_split, renderEnt_cons]
    by_cases hx' : xs' = []
    · simp [hx', sepEnt_nil, REnt.ent]
    · have hx : xs'.map REnt.ent ≠ [] := by simpa using hx'
      simp [hx', sepEnt_ne hx, REnt.ent]
  | nil =>
    rcases List.eq_nil_or_concat xs' with rfl | ⟨xs', x, rfl⟩
    · rw [k1 (by simp [hopn.1, hopn.2.1])]
      simp [dropEnt, REnt.ent]
    · rw [List.concat_eq_append] at *
      rw [k3 (by simp) (by simpa using hopn.2.2)]
      simp only [dropEnt, List.getLast?_concat, List.dropLast_concat, List.map_append, List.map_cons, List.map_nil]
      rw [if_neg (by simp)]
      simp only [renderEnt_split, REnt.ent, tailEnt_nil]
      simp

theorem delete_ok {d : Doc} {p : List Text} {w : Json} {q : Text} {n : Nat} (hd : d.wf) (h : d.get? p = some w)
    (hq : w.slot? q = some n) : ∃ xs e ys, rents w = xs ++ e :: ys ∧ xs.length = n ∧ w.wf ∧ w.isContainer ∧
      Delete d.render (p ++ [q]) = .done (d.set p (build w (e.l ++ e.r) (dropEnt xs e ys))).render none :=
  delete_ok_open (opens_of_wf hd) h hq
end Jin

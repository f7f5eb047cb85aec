import Verif.Props.Session
import Verif.Props.Built
/-!
# Props.Builds — C131: every JSON value can be built with small additions
-/

namespace Jin
open Spec

/-- An array or object without its entries; a scalar as it is. -/
def Spec.Json.shell : Json → Json
  | .arr _ _ => .arr [] []
  | .obj _ _ => .obj [] []
  | v => v

/-- A scalar or an empty container is added. -/
def Spec.Edit.small : Edit → Prop
  | .add _ v => v.size = 0
  | .addKeyValue _ _ v => v.size = 0
  | _ => False

mutual
/-- The keys of every object inside are distinct, and indices of arrays inside are integers of 64 bits. -/
def Spec.Json.distinct : Json → Bool
  | .lit _ => true
  | .str _ => true
  | .arr _ es => decide ((es.length : Int) ≤ 9223372036854775807) && distinctElems es
  | .obj _ ms => decide (ms.map Member.key).Nodup && distinctMembers ms
def Spec.distinctElems : List (Elem Json) → Bool
  | [] => true
  | ⟨_, v, _⟩ :: es => v.distinct && distinctElems es
def Spec.distinctMembers : List (Member Json) → Bool
  | [] => true
  | ⟨_, _, _, _, v, _⟩ :: ms => v.distinct && distinctMembers ms
end

theorem session_append {a b c : Bytes} {l m : List (Edit × Option Err)} (h : Session a l b) (h' : Session b m c) : Session a (l ++ m) c := by
  induction h with
  | nil => exact h'
  | cons h _ ih => exact .cons h (ih h')

/-- Calls that all succeed. -/
def Spec.Does (a : Bytes) (os : List Edit) (b : Bytes) : Prop := Session a (os.map fun o => (o, none)) b

theorem does_append {a b c : Bytes} {l m : List Edit} (h : Does a l b) (h' : Does b m c) : Does a (l ++ m) c := by
  unfold Does; rw [List.map_append]; exact session_append h h'

theorem shell_size (j : Json) : j.shell.size = 0 := by cases j <;> rfl
theorem shell_wf {j : Json} (h : j.wf) : j.shell.wf := by
  cases j with
  | arr g es => rfl
  | obj g ms => rfl
  | _ => exact h
theorem shell_noBracket (j : Json) : (!j.shell.isContainer || j.shell.allStr noBracket) = true := by cases j <;> rfl

/-- What follows the value at `p` in its container is scalars and containers of at most one entry. -/
def Spec.Doc.narrowAfter (d : Doc) (p : List Text) : Prop :=
  ∀ p' x, p = p' ++ [x] → ∃ u, d.get? p' = some u ∧ (u.later x).all Entry.narrow

/-- The value `j` can be built at a path where its empty container is. -/
def Buildable (j : Json) : Prop := ∀ (d : Doc) (p : List Text), d.wf → d.get? p = some j.shell → d.narrowAfter p →
  ∃ os : List Edit, (∀ o ∈ os, o.small) ∧ Does d.render os (d.set p j.strip).render

theorem doc_set_set {d : Doc} {p : List Text} {w : Json} (h : d.get? p = some w) (a b : Json) : (d.set p a).set p b = d.set p b := by
  unfold Doc.set
  simp only [Json.set]
  rw [upd_upd p h]
  rfl

theorem doc_get_set {d : Doc} {p : List Text} {w : Json} (h : d.get? p = some w) (a : Json) : (d.set p a).get? p = some a :=
  get_upd p h (fun _ => a)

theorem doc_set_wf {d : Doc} {p : List Text} {w a : Json} (hd : d.wf) (h : d.get? p = some w) (ha : a.wf) : (d.set p a).wf :=
  doc_upd_wf (f := fun _ => a) hd h ha

theorem doc_set_self {d : Doc} {p : List Text} {w : Json} (h : d.get? p = some w) : d.set p w = d := by
  unfold Doc.set Json.set
  rw [upd_self p h (fun _ => w) rfl]

theorem doc_set_child {d : Doc} {p : List Text} {q : Text} {w : Json} {n : Nat} (h : d.get? p = some w) (hn : w.slot? q = some n) (v : Json) :
    d.set (p ++ [q]) v = d.set p (updAt w n fun _ => v) := by
  have h : d.root.get? p = some w := h
  unfold Doc.set
  congr 1
  rw [Json.set, upd_append, Json.set]
  refine upd_congr p h ?_
  rw [Json.upd, updChild_slot hn]
  rfl

theorem doc_get_child {d : Doc} {p : List Text} {q : Text} {w c : Json} {n : Nat} (h : d.get? p = some w) (hn : w.slot? q = some n) (hc : valAt w n = some c) :
    d.get? (p ++ [q]) = some c := by
  unfold Doc.get?
  rw [get_append, show d.root.get? p = some w from h, Option.bind_some, Json.get?, child_slot, hn, Option.bind_some, hc]
  rfl

/-- Filling the entries of a container one after the other. `w i` is the container with `i` entries filled. -/
theorem fill (w : Nat → Json) (key : Nat → Text) (c : Nat → Json) (n : Nat) (hwf : ∀ i, i ≤ n → (w i).wf)
    (hs : ∀ i, i < n → (w i).slot? (key i) = some i) (hv : ∀ i, i < n → valAt (w i) i = some (c i).shell)
    (hu : ∀ i, i < n → updAt (w i) i (fun _ => (c i).strip) = w (i + 1))
    (hl : ∀ i, i < n → ((w i).entries.drop (i + 1)).all Entry.narrow) (hb : ∀ i, i < n → Buildable (c i)) :
    ∀ (k i : Nat) (d : Doc) (p : List Text), i + k = n → d.wf → d.get? p = some (w i) →
      ∃ os : List Edit, (∀ o ∈ os, o.small) ∧ Does d.render os (d.set p (w n)).render
  | 0, i, d, p, hk, _, h => by
    obtain rfl : i = n := hk
    exact ⟨[], by simp, by rw [doc_set_self h]; exact .nil⟩
  | k + 1, i, d, p, hk, hd, h => by
    have hi : i < n := by omega
    obtain ⟨os, h1, h2⟩ := hb i hi d (p ++ [key i]) hd (doc_get_child h (hs i hi) (hv i hi)) (by
      intro p' x e
      obtain ⟨e1, e2⟩ := List.append_inj' e rfl
      cases e2
      subst e1
      refine ⟨w i, h, ?_⟩
      unfold Json.later
      rw [hs i hi]
      exact hl i hi)
    rw [doc_set_child h (hs i hi), hu i hi] at h2
    obtain ⟨os', h3, h4⟩ := fill w key c n hwf hs hv hu hl hb k (i + 1) (d.set p (w (i + 1))) p (by omega)
      (doc_set_wf hd h (hwf _ (by omega))) (doc_get_set h _)
    rw [doc_set_set h] at h4
    exact ⟨os ++ os', fun o ho => (List.mem_append.1 ho).elim (h1 o) (h3 o), does_append h2 h4⟩

/-! ### Arrays -/

def shellElem (e : Elem Json) : Elem Json := ⟨[], e.v.shell, []⟩
def stripElem (e : Elem Json) : Elem Json := ⟨[], e.v.strip, []⟩

theorem stripElems_map (es : List (Elem Json)) : stripElems es = es.map stripElem := by
  induction es with
  | nil => rfl
  | cons e es ih => cases e; rw [stripElems, ih]; rfl

theorem adds_shells (es : List (Elem Json)) : ∀ (old : List (Elem Json)) (d : Doc) (p : List Text), d.wf → (∀ e ∈ es, e.v.wf) → (Json.arr [] old).wf →
    d.get? p = some (.arr [] old) →
    Does d.render (es.map fun e => .add p e.v.shell) (d.set p (.arr [] (old ++ es.map shellElem))).render := by
  induction es with
  | nil => intro old d p hd _ _ h; rw [List.map_nil, List.map_nil, List.append_nil, doc_set_self h]; exact .nil
  | cons e es ih =>
    intro old d p hd he ho h
    have hv : e.v.shell.wf := shell_wf (he e List.mem_cons_self)
    have ha := add_ok hd h e.v.shell
    obtain ⟨a1, -, -⟩ := addEnt_ok (x := .elem e.v.shell) ho rfl rfl hv
    rw [added_arr] at ha a1
    have e1 : newElem [] old e.v.shell = shellElem e := by simp [newElem, shellElem]
    rw [e1] at ha a1
    have := ih (old ++ [shellElem e]) _ p (doc_set_wf hd h a1) (fun x hx => he x (List.mem_cons_of_mem _ hx)) a1 (doc_get_set h _)
    rw [doc_set_set h, List.append_assoc] at this
    exact .cons ha this

theorem build_arr (g : Text) (es : List (Elem Json)) (hw : (Json.arr g es).wf) (hl : (es.length : Int) ≤ 9223372036854775807)
    (hb : ∀ e ∈ es, Buildable e.v) : Buildable (.arr g es) := by
  intro d p hd h hn
  have hes : ∀ e ∈ es, e.v.wf := by
    simp only [Json.wf, Bool.and_eq_true] at hw
    exact fun e he => (wfElems_iff.1 hw.2 e he).2.1
  have h1 := adds_shells es [] d p hd hes rfl h
  rw [List.nil_append] at h1
  have hwf : ∀ i, (Json.arr [] ((es.take i).map stripElem ++ (es.drop i).map shellElem)).wf := by
    intro i
    simp only [Json.wf, Bool.and_eq_true]
    refine ⟨rfl, wfElems_iff.2 fun e he => ?_⟩
    rcases List.mem_append.1 he with he | he
    · obtain ⟨x, hx, rfl⟩ := List.mem_map.1 he
      exact ⟨rfl, strip_wf _ (hes x (List.mem_of_mem_take hx)), rfl⟩
    · obtain ⟨x, hx, rfl⟩ := List.mem_map.1 he
      exact ⟨rfl, shell_wf (hes x (List.mem_of_mem_drop hx)), rfl⟩
  have hd' : (d.set p (.arr [] (es.map shellElem))).wf := doc_set_wf hd h (by simpa using hwf 0)
  have hlen : ∀ i, ((es.take i).map stripElem ++ (es.drop i).map shellElem).length = es.length := by
    intro i; rw [List.length_append, List.length_map, List.length_map, ← List.length_append, List.take_append_drop]
  obtain ⟨os, h2, h3⟩ := fill (fun i => .arr [] ((es.take i).map stripElem ++ (es.drop i).map shellElem)) (fun i => itoa i)
    (fun i => (es[i]?.map Elem.v).getD (.lit [])) es.length (fun i _ => hwf i)
    (fun i hi => by
      simp only [Json.slot?, readIndex_itoa (n := i) (by omega), Option.filter, hlen]
      simp [hi])
    (fun i hi => by
      simp only [valAt]
      rw [List.getElem?_append_right (by simp; omega)]
      simp [hi, shellElem, Nat.min_eq_left (Nat.le_of_lt hi)])
    (fun i hi => by
      simp only [updAt, Json.arr.injEq, true_and]
      apply List.ext_getElem?
      intro m
      simp only [List.getElem?_modify, List.getElem?_append, List.length_map, List.length_take, List.getElem?_map, List.getElem?_drop, List.getElem?_take]
      by_cases hm : i = m
      · subst hm
        simp [Nat.min_eq_left (Nat.le_of_lt hi), Nat.min_eq_left hi, hi, shellElem, stripElem]
      · have e1 : min i es.length = i := by omega
        have e2 : min (i + 1) es.length = i + 1 := by omega
        rw [e1, e2]
        by_cases h3 : m < i
        · have h4 : m < i + 1 := by omega
          simp [hm, h3, h4]
        · have h4 : ¬ m < i + 1 := by omega
          have h5 : i + (m - i) = i + 1 + (m - (i + 1)) := by omega
          simp [hm, h3, h4, h5])
    (fun i hi => by
      rw [List.all_eq_true]
      intro e he
      simp only [Json.entries] at he
      rw [← List.map_drop] at he
      obtain ⟨x, hx, rfl⟩ := List.mem_map.1 he
      rw [List.drop_append, List.drop_of_length_le (by simp; omega), List.nil_append] at hx
      obtain ⟨y, hy, rfl⟩ := List.mem_map.1 (List.mem_of_mem_drop hx)
      unfold Entry.narrow Entry.val shellElem
      simp [shell_size])
    (fun i hi => by
      rw [List.getElem?_eq_getElem hi]
      exact hb _ (List.getElem_mem hi))
    es.length 0 (d.set p (.arr [] (es.map shellElem))) p (by omega) hd' (by rw [doc_get_set h]; simp)
  refine ⟨_, fun o ho => ?_, does_append h1 (by
    rw [doc_set_set h] at h3
    simpa [Json.strip, stripElems_map] using h3)⟩
  rcases List.mem_append.1 ho with ho | ho
  · obtain ⟨e, -, rfl⟩ := List.mem_map.1 ho
    exact shell_size _
  · exact h2 o ho

/-! ### Objects -/

def shellMember (m : Member Json) : Member Json := ⟨[], m.key, [], [], m.v.shell, []⟩
def stripMember (m : Member Json) : Member Json := ⟨[], m.key, [], [], m.v.strip, []⟩

theorem stripMembers_map (ms : List (Member Json)) : stripMembers ms = ms.map stripMember := by
  induction ms with
  | nil => rfl
  | cons m ms ih => cases m; rw [stripMembers, ih]; rfl

theorem added_member (ms : List (Member Json)) (k : Text) (v : Json) :
    addEnt (.obj [] ms) (.member k [] [] v) = .obj [] (ms ++ [⟨[], k, [], [], v, []⟩]) := by
  cases ms with
  | nil => rfl
  | cons m ms =>
    simp only [addEnt, rents, build, gapOf]
    simp [toMember]
    exact List.map_id _

theorem adds_members (ms : List (Member Json)) : ∀ (old : List (Member Json)) (d : Doc) (p : List Text), d.wf → (∀ m ∈ ms, strOk m.key ∧ m.v.wf) →
    (Json.obj [] old).wf → (∀ m ∈ old, (!m.v.isContainer || m.v.allStr noBracket) = true) → ((old ++ ms).map Member.key).Nodup →
    d.get? p = some (.obj [] old) → d.narrowAfter p →
    Does d.render (ms.map fun m => .addKeyValue p m.key m.v.shell) (d.set p (.obj [] (old ++ ms.map shellMember))).render := by
  induction ms with
  | nil => intro old d p hd _ _ _ _ h _; rw [List.map_nil, List.map_nil, List.append_nil, doc_set_self h]; exact .nil
  | cons m ms ih =>
    intro old d p hd hm ho hb hn h hf
    have hv : m.v.shell.wf := shell_wf (hm m List.mem_cons_self).2
    have hnew : ∀ x ∈ old, x.key ≠ m.key := by
      intro x hx e
      rw [List.map_append, List.nodup_append] at hn
      exact hn.2.2 x.key (List.mem_map.2 ⟨x, hx, rfl⟩) m.key (by simp) e
    have hclear : old = [] ∨ d.clear p m.key := by
      by_cases h0 : old = []
      · exact .inl h0
      · right; left
        rcases List.eq_nil_or_concat p with rfl | ⟨p', x, rfl⟩
        · have h : d.root = .obj [] old := by simpa [Doc.get?, Json.get?] using h
          unfold Json.missOk
          simp only [List.getLast?_nil]
          split
          · rfl
          · rename_i e he
            rw [h] at he
            obtain ⟨y, hy, rfl⟩ := List.mem_map.1 (List.mem_of_getLast? he)
            exact hb y hy
        · rw [List.concat_eq_append] at *
          obtain ⟨u, hu, hl⟩ := hf p' x rfl
          have h' : d.root.get? (p' ++ [x]) = some (.obj [] old) := h
          have hu' : d.root.get? p' = some u := hu
          simp only [Json.missOk, List.getLast?_concat, List.dropLast_concat, hu', h']
          have e0 : (Json.obj [] old).size ≠ 0 := by simpa [Json.size] using h0
          simp only [if_neg e0]
          exact hl
    have ha := addkv_ok hd h (hclear.imp id fun hc => ⟨_, core_clear hd h (memberIdx_absent hnew) hc _, errEqual_keyNotFound m.key⟩) m.v.shell
    obtain ⟨a1, -, -⟩ := addEnt_ok (x := .member m.key [] [] m.v.shell) ho rfl rfl ⟨(hm m List.mem_cons_self).1, rfl, rfl, hv⟩
    rw [added_member] at ha a1
    have e1 : (⟨[], m.key, [], [], m.v.shell, []⟩ : Member Json) = shellMember m := rfl
    rw [e1] at ha a1
    have := ih (old ++ [shellMember m]) _ p (doc_set_wf hd h a1) (fun x hx => hm x (List.mem_cons_of_mem _ hx)) a1
      (by
        intro x hx
        rcases List.mem_append.1 hx with hx | hx
        · exact hb x hx
        · rw [List.mem_singleton] at hx; rw [hx]; exact shell_noBracket m.v)
      (by simpa [shellMember] using hn) (doc_get_set h _) (by
        intro p' x e
        subst e
        obtain ⟨u, hu, hl⟩ := hf p' x rfl
        have hc : u.get? [x] = some (.obj [] old) := by
          unfold Doc.get? at h hu
          rw [get_append, hu, Option.bind_some] at h
          exact h
        obtain ⟨c, hc, -⟩ := get_cons hc
        obtain ⟨n, hn, -⟩ := child_some hc
        refine ⟨updAt u n fun _ => .obj [] (old ++ [shellMember m]), by rw [doc_set_child hu hn, doc_get_set hu], ?_⟩
        unfold Json.later at hl ⊢
        rw [slot_updAt, hn]
        rw [hn] at hl
        have : (updAt u n fun _ => Json.obj [] (old ++ [shellMember m])).entries.drop (n + 1) = u.entries.drop (n + 1) := by
          cases u <;> simp only [updAt, Json.entries, ← List.map_drop, modify_drop]
        simp only [this]
        exact hl)
    rw [doc_set_set h, List.append_assoc] at this
    exact .cons ha this

theorem build_obj (g : Text) (ms : List (Member Json)) (hw : (Json.obj g ms).wf) (hn : (ms.map Member.key).Nodup)
    (hb : ∀ m ∈ ms, Buildable m.v) : Buildable (.obj g ms) := by
  intro d p hd h hna
  have hms : ∀ m ∈ ms, strOk m.key ∧ m.v.wf := by
    simp only [Json.wf, Bool.and_eq_true] at hw
    intro m hm
    have := wfMembers_iff.1 hw.2 m hm
    exact ⟨this.2.1, this.2.2.2.2.1⟩
  have h1 := adds_members ms [] d p hd hms rfl (by simp) (by simpa using hn) h hna
  rw [List.nil_append] at h1
  have hwf : ∀ i, (Json.obj [] ((ms.take i).map stripMember ++ (ms.drop i).map shellMember)).wf := by
    intro i
    simp only [Json.wf, Bool.and_eq_true]
    refine ⟨rfl, wfMembers_iff.2 fun m hm => ?_⟩
    rcases List.mem_append.1 hm with hm | hm
    · obtain ⟨x, hx, rfl⟩ := List.mem_map.1 hm
      have := hms x (List.mem_of_mem_take hx)
      exact ⟨rfl, this.1, rfl, rfl, strip_wf _ this.2, rfl⟩
    · obtain ⟨x, hx, rfl⟩ := List.mem_map.1 hm
      have := hms x (List.mem_of_mem_drop hx)
      exact ⟨rfl, this.1, rfl, rfl, shell_wf this.2, rfl⟩
  have hd' : (d.set p (.obj [] (ms.map shellMember))).wf := doc_set_wf hd h (by simpa using hwf 0)
  have hkeys : ∀ i, ((ms.take i).map stripMember ++ (ms.drop i).map shellMember).map Member.key = ms.map Member.key := by
    intro i
    rw [List.map_append, List.map_map, List.map_map]
    conv => rhs; rw [← List.take_append_drop i ms, List.map_append]
    rfl
  obtain ⟨os, h2, h3⟩ := fill (fun i => .obj [] ((ms.take i).map stripMember ++ (ms.drop i).map shellMember)) (fun i => (ms[i]?.map Member.key).getD [])
    (fun i => (ms[i]?.map Member.v).getD (.lit [])) ms.length (fun i _ => hwf i)
    (fun i hi => by
      simp only [Json.slot?, memberIdx]
      have key : ((((ms.take i).map stripMember ++ (ms.drop i).map shellMember).map Member.key).findIdx? fun k => k == (ms[i]?.map Member.key).getD []) = some i := by
        rw [hkeys, List.getElem?_eq_getElem hi, List.findIdx?_eq_some_iff_getElem]
        refine ⟨by simpa using hi, by simp, fun j hj => ?_⟩
        have := (List.pairwise_iff_getElem.1 hn) j i (by simp; omega) (by simpa using hi) hj
        simpa using this
      rw [List.findIdx?_map] at key
      exact key)
    (fun i hi => by
      simp only [valAt]
      rw [List.getElem?_append_right (by simp; omega)]
      simp [hi, shellMember, Nat.min_eq_left (Nat.le_of_lt hi)])
    (fun i hi => by
      simp only [updAt, Json.obj.injEq, true_and]
      apply List.ext_getElem?
      intro m
      simp only [List.getElem?_modify, List.getElem?_append, List.length_map, List.length_take, List.getElem?_map, List.getElem?_drop, List.getElem?_take]
      by_cases hm : i = m
      · subst hm
        simp [Nat.min_eq_left (Nat.le_of_lt hi), Nat.min_eq_left hi, hi, shellMember, stripMember]
      · have e1 : min i ms.length = i := by omega
        have e2 : min (i + 1) ms.length = i + 1 := by omega
        rw [e1, e2]
        by_cases h3 : m < i
        · have h4 : m < i + 1 := by omega
          simp [hm, h3, h4]
        · have h4 : ¬ m < i + 1 := by omega
          have h5 : i + (m - i) = i + 1 + (m - (i + 1)) := by omega
          simp [hm, h3, h4, h5])
    (fun i hi => by
      rw [List.all_eq_true]
      intro e he
      simp only [Json.entries] at he
      rw [← List.map_drop] at he
      obtain ⟨x, hx, rfl⟩ := List.mem_map.1 he
      rw [List.drop_append, List.drop_of_length_le (by simp; omega), List.nil_append] at hx
      obtain ⟨y, hy, rfl⟩ := List.mem_map.1 (List.mem_of_mem_drop hx)
      unfold Entry.narrow Entry.val shellMember
      simp [shell_size])
    (fun i hi => by
      rw [List.getElem?_eq_getElem hi]
      exact hb _ (List.getElem_mem hi))
    ms.length 0 (d.set p (.obj [] (ms.map shellMember))) p (by omega) hd' (by rw [doc_get_set h]; simp)
  refine ⟨_, fun o ho => ?_, does_append h1 (by
    rw [doc_set_set h] at h3
    simpa [Json.strip, stripMembers_map] using h3)⟩
  rcases List.mem_append.1 ho with ho | ho
  · obtain ⟨e, -, rfl⟩ := List.mem_map.1 ho
    exact shell_size _
  · exact h2 o ho

theorem build_scalar {j : Json} (h : j.isContainer = false) : Buildable j := by
  intro d p _ hg _
  refine ⟨[], by simp, ?_⟩
  have e : j.strip = j.shell := by cases j <;> first | rfl | cases h
  rw [e, doc_set_self hg]
  exact .nil

mutual
theorem build_all : ∀ j : Json, j.wf → j.distinct → Buildable j
  | .lit _, _, _ => build_scalar rfl
  | .str _, _, _ => build_scalar rfl
  | .arr g es, hw, hd => by
    simp only [Json.distinct, Bool.and_eq_true, decide_eq_true_eq] at hd
    have hw' := hw
    simp only [Json.wf, Bool.and_eq_true] at hw'
    exact build_arr g es hw hd.1 (build_elems es hw'.2 hd.2)
  | .obj g ms, hw, hd => by
    simp only [Json.distinct, Bool.and_eq_true, decide_eq_true_eq] at hd
    have hw' := hw
    simp only [Json.wf, Bool.and_eq_true] at hw'
    exact build_obj g ms hw hd.1 (build_members ms hw'.2 hd.2)
theorem build_elems : ∀ es : List (Elem Json), wfElems es → distinctElems es → ∀ e ∈ es, Buildable e.v
  | [], _, _ => by simp
  | ⟨l, v, r⟩ :: es, hw, hd => by
    simp only [distinctElems, Bool.and_eq_true] at hd
    simp only [wfElems, Bool.and_eq_true] at hw
    intro e he
    rcases List.mem_cons.1 he with rfl | he
    · exact build_all v hw.1.1.2 hd.1
    · exact build_elems es hw.2 hd.2 e he
theorem build_members : ∀ ms : List (Member Json), wfMembers ms → distinctMembers ms → ∀ m ∈ ms, Buildable m.v
  | [], _, _ => by simp
  | ⟨l, k, m, l2, v, r⟩ :: ms, hw, hd => by
    simp only [distinctMembers, Bool.and_eq_true] at hd
    simp only [wfMembers, Bool.and_eq_true] at hw
    intro e he
    rcases List.mem_cons.1 he with rfl | he
    · exact build_all v hw.1.1.2 hd.1
    · exact build_members ms hw.2 hd.2 e he
end

/-- **C131** Every array and every object can be built from `[]` or `{}` by calls of `Add` and `AddKeyValue` that each put in one scalar or one empty
container; all calls succeed, and the text is then that of the value without white space. Keys within an object must differ. -/
theorem C131_build (j : Json) (hw : j.wf) (hd : j.distinct) (hc : j.isContainer) :
    ∃ os : List Edit, (∀ o ∈ os, o.small) ∧ Does (if j.kind = .arr then str "[]" else str "{}") os j.plain.text := by
  have hwf : (⟨[], j.shell, []⟩ : Doc).wf := by simp [Doc.wf, Ws, shell_wf hw]
  obtain ⟨os, h1, h2⟩ := build_all j hw hd ⟨[], j.shell, []⟩ [] hwf rfl (by
    intro p' x e
    exact absurd e.symm (by simp))
  have e1 : (⟨[], j.shell, []⟩ : Doc).render = if j.kind = .arr then str "[]" else str "{}" := by
    cases j with
    | lit t => cases hc
    | str t => cases hc
    | arr g es => rw [if_pos (by rfl)]; exact (by decide +kernel : (⟨[], .arr [] [], []⟩ : Doc).render = str "[]")
    | obj g ms => rw [if_neg (by intro h; cases h)]; exact (by decide +kernel : (⟨[], .obj [] [], []⟩ : Doc).render = str "{}")
  have e2 : ((⟨[], j.shell, []⟩ : Doc).set [] j.strip).render = j.plain.text := by
    simp [Doc.set, Json.set, Json.upd, Doc.render, text_strip]
  rw [e1, e2] at h2
  exact ⟨os, h1, h2⟩

/-- **C131** The same within a document, at a path that leads to an empty container, if what follows it there is scalars and containers of at most one entry. -/
theorem C131_inside (j : Json) (hw : j.wf) (hd : j.distinct) (d : Doc) (p : List Text) (hwf : d.wf) (h : d.get? p = some j.shell) (hn : d.narrowAfter p) :
    ∃ os : List Edit, (∀ o ∈ os, o.small) ∧ Does d.render os (d.set p j.strip).render :=
  build_all j hw hd d p hwf h hn

theorem container_kind {a b : Json} (h : a.kind = b.kind) (hb : b.isContainer = true) : a.isContainer = true := by
  cases a <;> cases b <;> first | rfl | (cases h; done) | (cases hb; done)

theorem clear_root : ∀ (n : Nat) (d : Doc), d.wf → d.root.isContainer → d.root.size = n →
    ∃ (os : List Edit) (d' : Doc), (∀ o ∈ os, ∃ q, o = Edit.delete [] q) ∧ Does d.render os d'.render ∧ d'.wf ∧ d'.root.kind = d.root.kind ∧ d'.root.size = 0
  | 0, d, hd, _, h0 => ⟨[], d, by simp, .nil, hd, rfl, h0⟩
  | n + 1, d, hd, hc, h0 => by
    obtain ⟨q, c, hq⟩ : ∃ q c, d.get? ([] ++ [q]) = some c := by
      obtain ⟨ld, r, tr⟩ := d
      cases r with
      | lit t => cases hc
      | str t => cases hc
      | arr g es =>
        cases es with
        | nil => cases h0
        | cons e es =>
          refine ⟨itoa 0, e.v, ?_⟩
          have : readIndex (itoa 0) = some 0 := readIndex_itoa (n := 0) (by decide)
          simp [Doc.get?, Json.get?, Json.child?, this]
      | obj g ms =>
        cases ms with
        | nil => cases h0
        | cons m ms => exact ⟨m.key, m.v, by simp [Doc.get?, Json.get?, Json.child?, memberIdx, List.findIdx?_cons]⟩
    obtain ⟨i, w', h1, -, h2, h3, h4, h5⟩ := C16_delete_exact d [] q d.root c hd rfl hq
    have hk : (d.set [] w').root = w' := rfl
    obtain ⟨os, d', g1, g2, g3, g4, g5⟩ := clear_root n (d.set [] w') h3 (by rw [hk]; exact container_kind h4 hc) (by
      rw [hk, size_entries, h5, List.length_eraseIdx_of_lt (slot_lt h1), ← size_entries, h0]; rfl)
    refine ⟨.delete [] q :: os, d', ?_, .cons h2 g2, g3, by rw [g4, hk, h4], g5⟩
    intro o ho
    rcases List.mem_cons.1 ho with rfl | ho
    · exact ⟨q, rfl⟩
    · exact g1 o ho

/-- **C131** Every document that is an array or object can be emptied by calls of `Delete`, which all succeed; `Flatten` of what is left is `[]` or `{}`. -/
theorem C131_empty (d : Doc) (hd : d.wf) (hc : d.root.isContainer) :
    ∃ os t, (∀ o ∈ os, ∃ q, o = Edit.delete [] q) ∧ Does d.render os t ∧ Flatten t = if d.root.kind = .arr then str "[]" else str "{}" := by
  obtain ⟨os, d', h1, h2, h3, h4, h5⟩ := clear_root _ d hd hc rfl
  refine ⟨os, _, h1, h2, ?_⟩
  rw [flatten_ok h3, ← h4]
  cases hr : d'.root with
  | lit t => have := container_kind h4 hc; rw [hr] at this; cases this
  | str t => have := container_kind h4 hc; rw [hr] at this; cases this
  | arr g es =>
    rw [hr] at h5
    have : es = [] := List.eq_nil_of_length_eq_zero h5
    subst this
    rw [if_pos (by rfl)]
    exact (by decide +kernel : (Json.arr [] []).render = str "[]")
  | obj g ms =>
    rw [hr] at h5
    have : ms = [] := List.eq_nil_of_length_eq_zero h5
    subst this
    rw [if_neg (by intro h; cases h)]
    exact (by decide +kernel : (Json.obj [] []).render = str "{}")

/-- **C131** So every document can be made of every other of the same kind: deletions, `Flatten`, additions. -/
theorem C131_reach (d d' : Doc) (hd : d.wf) (hd' : d'.wf) (hc : d.root.isContainer) (hk : d'.root.kind = d.root.kind) (hu : d'.root.distinct) :
    ∃ os t os', (∀ o ∈ os, ∃ q, o = Edit.delete [] q) ∧ (∀ o ∈ os', o.small) ∧ Does d.render os t ∧ Does (Flatten t) os' (Flatten d'.render) := by
  obtain ⟨os, t, h1, h2, h3⟩ := C131_empty d hd hc
  obtain ⟨os', g1, g2⟩ := C131_build d'.root (doc_wf.1 hd').2.1 hu (container_kind hk hc)
  refine ⟨os, t, os', h1, g1, h2, ?_⟩
  rw [h3, flatten_ok hd', text_strip, ← hk]
  exact g2

/-- A document with strings that hold brackets and quoted keys, nested containers, and keys that occur again further down. -/
def Sample.tangled : Json :=
  .obj [32] [⟨[], str "a", [], [32], .arr [] [⟨[], .lit (str "1"), [32]⟩, ⟨[], .obj [] [⟨[], str "b", [], [], .str (str "]\\\"b\\\"}"), []⟩,
      ⟨[], str "a", [], [], .arr [] [⟨[], .str (str "x"), []⟩], []⟩], []⟩], []⟩,
    ⟨[], str "b", [], [], .obj [] [], []⟩, ⟨[], str "", [], [], .arr [] [⟨[], .arr [] [], []⟩], []⟩]

/-- A case of the hypotheses of `C131_build`. -/
example : ∃ os : List Edit, (∀ o ∈ os, o.small) ∧
    Does (str "{}") os (str "{\"a\":[1,{\"b\":\"]\\\"b\\\"}\",\"a\":[\"x\"]}],\"b\":{},\"\":[[]]}") := by
  have h := C131_build Sample.tangled (by decide +kernel) (by decide +kernel) (by decide +kernel)
  have e : Sample.tangled.plain.text = str "{\"a\":[1,{\"b\":\"]\\\"b\\\"}\",\"a\":[\"x\"]}],\"b\":{},\"\":[[]]}" := by decide +kernel
  rw [e] at h
  exact h

/-- … and of `C131_inside`: in `{"q":{"p":[],"n":[7]},"z":[1,2]}` at the path `q`, `p`. -/
example : ∃ os : List Edit, (∀ o ∈ os, o.small) ∧
    Does (str "{\"q\":{\"p\":{},\"n\":[7]},\"z\":[1,2]}") os
      (str "{\"q\":{\"p\":{\"a\":[1,{\"b\":\"]\\\"b\\\"}\",\"a\":[\"x\"]}],\"b\":{},\"\":[[]]},\"n\":[7]},\"z\":[1,2]}") := by
  let d : Doc := ⟨[], .obj [] [⟨[], str "q", [], [], .obj [] [⟨[], str "p", [], [], .obj [] [], []⟩,
    ⟨[], str "n", [], [], .arr [] [⟨[], .lit (str "7"), []⟩], []⟩], []⟩,
    ⟨[], str "z", [], [], .arr [] [⟨[], .lit (str "1"), []⟩, ⟨[], .lit (str "2"), []⟩], []⟩], []⟩
  have e1 : str "{\"q\":{\"p\":{},\"n\":[7]},\"z\":[1,2]}" = d.render := by decide +kernel
  have e2 : str "{\"q\":{\"p\":{\"a\":[1,{\"b\":\"]\\\"b\\\"}\",\"a\":[\"x\"]}],\"b\":{},\"\":[[]]},\"n\":[7]},\"z\":[1,2]}" =
      (d.set [str "q", str "p"] Sample.tangled.strip).render := by decide +kernel
  rw [e1, e2]
  refine C131_inside Sample.tangled (by decide +kernel) (by decide +kernel) d _ (by decide +kernel) (by decide +kernel) fun p' x e => ?_
  obtain ⟨e1, e2⟩ := List.append_inj' (show [str "q"] ++ [str "p"] = p' ++ [x] from e) rfl
  cases e2
  subst e1
  exact ⟨.obj [] [⟨[], str "p", [], [], .obj [] [], []⟩, ⟨[], str "n", [], [], .arr [] [⟨[], .lit (str "7"), []⟩], []⟩],
    by decide +kernel, by decide +kernel⟩

/-- … and of `C131_reach`. -/
example : ∃ os t os', (∀ o ∈ os, ∃ q, o = Edit.delete [] q) ∧ (∀ o ∈ os', o.small) ∧ Does Sample.doc.render os t ∧
    Does (Flatten t) os' (Flatten (⟨[32], Sample.tangled, [10]⟩ : Doc).render) :=
  C131_reach Sample.doc ⟨[32], Sample.tangled, [10]⟩ Sample.doc_wf (by decide +kernel) (by decide +kernel) (by decide +kernel) (by decide +kernel)

end Jin

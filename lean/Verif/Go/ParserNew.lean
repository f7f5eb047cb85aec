import Verif.Go.ParserM
import Verif.Go.Make
import Verif.Proof.PtrRead
/-!
# Go.ParserNew — `node.dive` and `Parser.GetNew` in the text
-/

namespace Jin.Go

section
variable {fl : FloatLib UInt64} {fuel d : Nat} {h : NHeap} {sp : Bool}

theorem run_packKeyValue (l v : Bytes) : (jin fl).fn fuel (d + 1) (go% packKeyValue) sp [.bytes l, .bytes v] = .ok [.bytes (memberText l v)] := by
  rw [fn_run (g := Src.packKeyValue) rfl]
  run_go [Func.run, Src.packKeyValue, bindParams, memberText]
  simp

theorem run_packValue (v : Bytes) : (jin fl).fn fuel (d + 1) (go% packValue) sp [.bytes v] = .ok [.bytes v] := by
  rw [fn_run (g := Src.packValue) rfl]
  run_go [Func.run, Src.packValue, bindParams]

/-- What `dive` does on one child. -/
def diveItem (c : UInt8) (label val : Bytes) : Bytes := if c == 123 then memberText label val else if c == 91 then val else []

theorem open_cases (c : UInt8) : ((c == 123) = true ∧ (c == 91) = false) ∨ ((c == 123) = false ∧ (c == 91) = true) ∨ ((c == 123) = false ∧ (c == 91) = false) := by
  cases h3 : c == 123
  · cases h4 : c == 91
    · exact .inr (.inr ⟨rfl, rfl⟩)
    · exact .inr (.inl ⟨rfl, rfl⟩)
  · exact .inl ⟨rfl, by rw [eq_of_beq h3]; rfl⟩

abbrev dvEnv (h : NHeap) (n : Nat) (temp : Bytes) : Env :=
  [(go% temp, .bytes temp), (0, .nil), (go% heap, .heap h), (go% n, .ptr n), (go% bytes, .bytes [])]

theorem dive_body {n q : Nat} {r u : NodeRec} (hr : h[q]? = some r) (hup : r.up = some n) (hu : h[n]? = some u) {c : UInt8} (hc : u.value[0]? = some c)
    {o : Out Bytes} (ho : ∀ e, o ≠ .err e)
    (hv : (r.down.length == 0) = true ∧ o = .ok r.value ∨ (r.down.length == 0) = false ∧
      (jin fl).fn fuel (d + 1) (go% node.dive) false [.heap h, .ptr q, .bytes []] = (outR o).bind fun v => .ok [.heap h, .bytes v]) (temp : Bytes) :
    exec (ctx fl fuel (d + 1)) fuel Src.node.dive.body1 ⟨(), (go% d, .ptr q) :: (0, .nil) :: dvEnv h n temp⟩ =
    match o with
    | .ok v => .norm ⟨(), (go% d, .ptr q) :: (0, .nil) :: dvEnv h n (temp ++ diveItem c r.label v ++ [44])⟩
    | _ => .panic := by
  have hne : ((r.down.length : Int) != 0) = !(r.down.length == 0) := by
    rw [Bool.eq_iff_iff]; simp
  have p1 := fun v => run_packKeyValue (fl := fl) (fuel := fuel) (d := d) (sp := false) r.label v
  have p2 := fun v => run_packValue (fl := fl) (fuel := fuel) (d := d) (sp := false) v
  rcases hv with ⟨h1, rfl⟩ | ⟨h1, h2⟩
  · rw [h1] at hne
    rcases open_cases c with ⟨h3, h4⟩ | ⟨h3, h4⟩ | ⟨h3, h4⟩ <;>
      run_go [Src.node.dive.body1, node_ok hr, node_ok hu, hup, hne, hc, h3, h4, p1, p2, diveItem, h1, List.append_nil]
  · rw [h1] at hne
    cases o with
    | err e => exact absurd rfl (ho e)
    | panic => run_go [Src.node.dive.body1, node_ok hr, node_ok hu, hup, hne, hc, h2, h1]
    | ok v =>
      rcases open_cases c with ⟨h3, h4⟩ | ⟨h3, h4⟩ | ⟨h3, h4⟩ <;>
        run_go [Src.node.dive.body1, node_ok hr, node_ok hu, hup, hne, hc, h2, h3, h4, p1, p2, diveItem, h1, List.append_nil]

/-- The loop of `dive`. -/
theorem dive_range {n : Nat} {u : NodeRec} (hu : h[n]? = some u) {c : UInt8} (hc : u.value[0]? = some c) :
    ∀ (ds : List PTree) (f : Nat → Val) (temp : Bytes), (∀ t ∈ ds, Here h (some n) t) →
    (∀ t ∈ ds, (∀ e, t.erase.dive ≠ .err e) ∧
      (jin fl).fn fuel (d + 1) (go% node.dive) false [.heap h, .ptr t.ptr, .bytes []] = (outR t.erase.dive).bind fun v => .ok [.heap h, .bytes v]) →
    (∀ e, diveList u.value c (eraseL ds) ≠ .err e) ∧
    rangeN 0 (go% d) (fun s => exec (ctx fl fuel (d + 1)) fuel Src.node.dive.body1 s) ((ds.map PTree.ptr).mapIdx fun i c => (f i, .ptr c)) ⟨(), dvEnv h n temp⟩ =
    match diveList u.value c (eraseL ds) with
    | .ok b => .norm ⟨(), dvEnv h n (temp ++ b)⟩
    | _ => .panic := by
  intro ds
  induction ds with
  | nil =>
    intro f temp _ _
    rw [eraseL, diveList]
    refine ⟨fun _ => nofun, ?_⟩
    simp only [List.append_nil]
    rfl
  | cons t ds ih =>
    intro f temp hk hd
    have ht := hk t List.mem_cons_self
    obtain ⟨hne, hfn⟩ := hd t List.mem_cons_self
    have ih := fun temp => ih (fun i => f (i + 1)) temp (fun t h => hk t (List.mem_cons_of_mem _ h)) fun t h => hd t (List.mem_cons_of_mem _ h)
    obtain ⟨q, l, v, kids⟩ := t
    obtain ⟨ht1, -⟩ := ht
    have hemp : (eraseL kids).isEmpty = ((kids.map PTree.ptr).length == 0) := by rw [eraseL_map]; cases kids <;> simp
    have b := fun o ho hv => dive_body (fl := fl) (fuel := fuel) (d := d) ht1 rfl hu hc (o := o) ho hv temp
    simp only at b
    rw [eraseL, PTree.erase, diveList, hemp, List.map_cons, List.mapIdx_cons, rangeN, show (PTree.mk q l v kids).ptr = q from rfl]
    cases hz : (kids.map PTree.ptr).length == 0
    · simp only [Bool.false_eq_true, if_false]
      rw [PTree.erase] at hne hfn
      have b := b _ hne (.inr ⟨hz, hfn⟩)
      cases hv : Node.dive (.mk l v (eraseL kids)) with
      | err e => exact absurd hv (hne e)
      | panic =>
        rw [hv] at b
        refine ⟨fun _ => nofun, ?_⟩
        run_go [Env.new, b]
      | ok w =>
        rw [hv] at b
        obtain ⟨ih1, ih2⟩ := ih (temp ++ diveItem c l w ++ [44])
        cases hr : diveList u.value c (eraseL ds) with
        | err e => exact absurd hr (ih1 e)
        | panic =>
          rw [hr] at ih2
          refine ⟨fun _ => nofun, ?_⟩
          run_go [Env.new, b, ih2]
        | ok z =>
          rw [hr] at ih2
          refine ⟨fun _ => nofun, ?_⟩
          have hh : temp ++ diveItem c l w ++ [44] ++ z = temp ++ (diveItem c l w ++ [44] ++ z) := by simp
          simp only at ih2
          rw [hh] at ih2
          run_go [Env.new, b, ih2]
          rfl
    · simp only [if_true]
      have b := b (.ok v) (fun _ => nofun) (.inl ⟨hz, rfl⟩)
      obtain ⟨ih1, ih2⟩ := ih (temp ++ diveItem c l v ++ [44])
      cases hr : diveList u.value c (eraseL ds) with
      | err e => exact absurd hr (ih1 e)
      | panic =>
        rw [hr] at ih2
        refine ⟨fun _ => nofun, ?_⟩
        run_go [Env.new, b, ih2]
      | ok z =>
        rw [hr] at ih2
        refine ⟨fun _ => nofun, ?_⟩
        have hh : temp ++ diveItem c l v ++ [44] ++ z = temp ++ (diveItem c l v ++ [44] ++ z) := by simp
        simp only at ih2
        rw [hh] at ih2
        run_go [Env.new, b, ih2]
        rfl

theorem kid_ptrs {t : PTree} {ds : List PTree} (h : t ∈ ds) : t.ptrs.length ≤ (ptrsL ds).length := by
  induction ds with
  | nil => cases h
  | cons a ds ih =>
    rw [ptrsL, List.length_append]
    rcases List.mem_cons.1 h with rfl | h
    · omega
    · have := ih h; omega

/-- `node.dive` -/
theorem run_dive : ∀ (n : Nat) (t : PTree) (up : Option Nat) (depth : Nat) (sp : Bool), t.ptrs.length ≤ n → n + 1 ≤ depth → Here h up t →
    (∀ e, t.erase.dive ≠ .err e) ∧
    (jin fl).fn fuel depth (go% node.dive) sp [.heap h, .ptr t.ptr, .bytes []] = (outR t.erase.dive).bind fun v => .ok [.heap h, .bytes v] := by
  intro n
  induction n with
  | zero => intro t _ _ _ hn; have := ptrs_pos t; omega
  | succ n ih =>
    intro t up depth sp hn hd ht
    obtain ⟨d, rfl⟩ : ∃ d, depth = d + 2 := ⟨depth - 2, by omega⟩
    obtain ⟨q, l, v, kids⟩ := t
    have hk := hereL_iff.1 ht.2
    rw [PTree.erase, Node.dive, show (PTree.mk q l v kids).ptr = q from rfl, fn_run (g := Src.node.dive) rfl]
    have hq := ht.1
    cases hc : v[0]? with
    | none =>
      have hi : idx v 0 = .panic := by cases v with
        | nil => rfl
        | cons => cases hc
      rw [hi]
      refine ⟨fun _ => nofun, ?_⟩
      run_go [Func.run, Src.node.dive, bindParams, node_ok hq, hc]
    | some c =>
      have hi : idx v 0 = .ok c := by cases v with
        | nil => cases hc
        | cons a l => cases hc; rfl
      rw [hi]
      obtain ⟨r1, r2⟩ := dive_range (fl := fl) (fuel := fuel) (d := d) hq hc kids (fun i => .int i) [c] hk (fun t htm => by
        refine ih t (some q) (d + 1) false ?_ (by omega) (hk t htm)
        have := kid_ptrs htm
        rw [PTree.ptrs, List.length_cons] at hn
        omega)
      simp only at r1 r2
      show (∀ e, (diveList v c (eraseL kids)).bind _ ≠ _) ∧ _ = (outR ((diveList v c (eraseL kids)).bind _)).bind _
      cases hr : diveList v c (eraseL kids) with
      | err e => exact absurd hr (r1 e)
      | panic =>
        rw [hr] at r2
        refine ⟨fun _ => nofun, ?_⟩
        run_go [Func.run, Src.node.dive, Src.node.dive.for1, bindParams, node_ok hq, hc, r2]
        rfl
      | ok b =>
        rw [hr] at r2
        refine ⟨fun _ => nofun, ?_⟩
        have h0 : ((c :: b).length == 0) = false := by simp
        have h1 := slice_dropLast (c :: b) (by simp)
        run_go [Func.run, Src.node.dive, Src.node.dive.for1, bindParams, node_ok hq, hc, r2, h0, h1]
        rfl

theorem run_Parser_GetNew {p : ParserP} {P : Parser} {up : Option Nat} {t : PTree} (hr : Rep h p P up t) (hh : Closed h) (path : List Bytes) (hd : h.length ≤ d)
    (hf : ∀ r ∈ h, r.value.length < fuel) (hf2 : ∀ s v, P.core.walk path = .ok s → s.dive = .ok v → v.length < fuel) :
    (jin fl).fn fuel (d + 3) (go% Parser.GetNew) true [.heap h, .ptr p.core, .bytes p.json, .strs path] =
    match P.core.walk path, P.GetNew path with
    | .err _, _ => .ok [.heap h, .ptr p.core, .bytes p.json, .nil]
    | .ok _, .ok v => .ok [.heap h, .ptr p.core, .bytes p.json, .bytes v]
    | _, _ => .panic := by
  have hp : p.core < h.length := by rw [hr.core]; exact hr.holds.here.lt _ (ptr_mem t)
  rw [fn_run (g := Src.Parser.GetNew) rfl]
  have hw := run_nodeWalk (fl := fl) (fuel := fuel) (d := d) (sp := false) hh hp path
  unfold Parser.GetNew
  rcases hr.walk path with ⟨s, h1, h2, h3⟩ | ⟨e, h1, h2, h3⟩
  · rw [h2] at hw
    rw [h3]
    obtain ⟨u, hu⟩ := (walk_sub h1).here hr.holds.here
    have hs : InMem h u s := ⟨hu, (walk_sub h1).nodup hr.holds.nodup⟩
    obtain ⟨r, hc, hrv, hrd⟩ : ∃ r, h[s.ptr]? = some r ∧ r.value = s.value ∧ r.down = s.down.map PTree.ptr := ⟨_, hu.cell, rfl, rfl⟩
    have hemp : s.erase.down.isEmpty = (r.down.length == 0) := by rw [hrd, erase_down]; cases s.down <;> simp
    have hv := run_cleanValue (fl := fl) (fuel := fuel) (d := d) (sp := false) r.value (hf r (List.mem_of_getElem? hc))
    obtain ⟨hv1, hv2⟩ := run_dive (fl := fl) (fuel := fuel) (h := h) s.ptrs.length s u (d + 2) false (Nat.le_refl _) (by have := hs.size; omega) hu
    have hpc : (path.length == 0) = true → s.ptr = p.core := by
      intro h0
      have : path = [] := by cases path <;> simp_all
      subst this
      rw [PTree.walk] at h1
      cases h1
      exact hr.core.symm
    simp only
    rw [hemp, erase_value, ← hrv]
    cases h0 : path.length == 0
    all_goals try rw [hpc h0] at hc hv2
    all_goals
      cases hd0 : r.down.length == 0
      · cases hx : s.erase.dive with
        | err e => exact absurd hx (hv1 e)
        | panic => rw [hx] at hv2; run_go [Func.run, Src.Parser.GetNew, bindParams, h0, Bool.not_true, Bool.not_false, hw, node_ok hc, hd0, hv2]
        | ok v =>
          rw [hx] at hv2
          have hv := run_cleanValue (fl := fl) (fuel := fuel) (d := d) (sp := false) v (hf2 _ _ h3 hx)
          rcases cv_cases v with ⟨w, hcv⟩ | hcv <;> rw [hcv] at hv <;>
            run_go [Func.run, Src.Parser.GetNew, bindParams, h0, Bool.not_true, Bool.not_false, hw, node_ok hc, hd0, hv2, hv, hcv]
      · rcases cv_cases r.value with ⟨v, hcv⟩ | hcv <;> rw [hcv] at hv <;>
          run_go [Func.run, Src.Parser.GetNew, bindParams, h0, Bool.not_true, Bool.not_false, hw, node_ok hc, hd0, hv, hcv]
  · rw [h2] at hw
    rw [h3]
    have h0 : (path.length == 0) = false := by
      cases path with
      | nil => rw [PTree.walk] at h1; cases h1
      | cons => rfl
    run_go [Func.run, Src.Parser.GetNew, bindParams, h0, Bool.not_true, Bool.not_false, hw]

end

end Jin.Go

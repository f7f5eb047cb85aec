import Verif.Proof.CoreKey
/-!
# Proof.CoreMain — `core` on a path that leads somewhere
-/

namespace Jin
open Spec

/-- The `keyStart` result for a key at relative offset `key` of a container at `i`. -/
def ksOf (i : Nat) (key : Option Nat) : Int :=
  match key with | some x => ((i + x : Nat) : Int) | none => -1

section
variable {json : Bytes} {path : List Bytes}

theorem readIndex_some {p : Bytes} {n : Nat} (h : readIndex p = some n) : atoi p = some (n : Int) := by
  unfold readIndex at h
  rw [atoi_eq]
  split at h
  · rename_i m hm; cases h; exact hm
  · cases h

theorem step_ok {v : Json} {p : Bytes} {ps : List Bytes} {f : Found} {s : CoreSt}
    (hd : path.drop s.k = p :: ps) (hcur : s.cur = p) (hv : v.wf) (hb : s.brace = v.first)
    (hseg : Seg json s.offset v.render) (hf : findAt v (p :: ps) = some f) (hks : s.keyStart = -1) :
    ∃ t, coreStep json path s = .done t ∧
      Outcome json path (s.offset + f.pos) f.val (ksOf s.offset f.key) t ∧ s.k ≤ t.k := by
  have hlen : s.k < path.length := by
    have := congrArg List.length hd; simp at this; omega
  have hlast : ps = [] ↔ s.k + 1 = path.length := by
    have := congrArg List.length hd; simp at this
    constructor
    · rintro rfl; simp at this; omega
    · intro h; apply List.eq_nil_of_length_eq_zero; omega
  cases v with
  | lit t => simp [findAt, childAt] at hf
  | str t => simp [findAt, childAt] at hf
  | arr g es =>
    rw [findAt, childAt] at hf
    cases hn : readIndex p with
    | none => simp [hn] at hf
    | some n =>
      cases he : elemAt es n with
      | none => simp [hn, he] at hf
      | some x =>
        obtain ⟨o, v⟩ := x
        simp only [hn, Option.bind_some, he, Option.map_some] at hf
        have hvs := elem_seg (wf_arr.1 hv).2 (seg_arr (elemAt_ne he) hseg).2 he
        have hcon : s.k + 1 = path.length ∨ v.isContainer := by
          by_cases hps : ps = []
          · exact Or.inl (hlast.1 hps)
          · rw [if_neg (by simpa using hps)] at hf
            obtain ⟨q, qs, rfl⟩ := List.exists_cons_of_ne_nil hps
            simp only [Option.map_eq_some_iff] at hf
            obtain ⟨f', hf', _⟩ := hf
            exact Or.inr (container_of_find hf')
        have hat := readIndex_some hn
        -- both searches end with the same facts
        have fin : ∀ (off : Nat) (br : UInt8) (cur : Bytes),
            ((s.k + 1 = path.length ∧ skipSpaces json off = some (s.offset + (1 + o)) ∧ 0 < off) ∨
             (s.k + 1 ≠ path.length ∧ off = s.offset + (1 + o) ∧ br = v.first ∧ path[s.k + 1]? = some cur)) →
            Outcome json path (s.offset + f.pos) f.val (ksOf s.offset f.key)
              { s with offset := off, brace := br, cur := cur } := by
          intro off br cur h
          rcases h with ⟨h1, h2, h3⟩ | ⟨h1, h2, h3, h4⟩
          · rw [if_pos (by simpa using hlast.2 h1)] at hf
            cases hf
            exact .last h1 h2 h3 hks
          · have hps : ps ≠ [] := fun h => h1 (hlast.1 h)
            rw [if_neg (by simpa using hps)] at hf
            obtain ⟨q, qs, rfl⟩ := List.exists_cons_of_ne_nil hps
            simp only [Option.map_eq_some_iff] at hf
            obtain ⟨f', hf', rfl⟩ := hf
            have hdrop : path.drop (s.k + 1) = q :: qs := by rw [← List.drop_drop, hd]; rfl
            have hq : cur = q := by
              have : (path.drop (s.k + 1))[0]? = some q := by rw [hdrop]; rfl
              rw [List.getElem?_drop] at this
              simp only [Nat.add_zero] at this
              rw [this] at h4; exact (Option.some.inj h4).symm
            subst h2 h3
            refine .more (v := v) (f := f') hdrop hq (container_of_find hf') hvs.2.1 rfl ?_ hf' rfl ?_ ?_ hks
            · simp only [← Nat.add_assoc]; exact hvs.1
            · simp only [Found.shift]; omega
            · simp only [Found.shift, ksOf]
              cases f'.key with
              | none => rfl
              | some x => simp only [Option.map_some]; congr 1; omega
        by_cases hn0 : n = 0
        · subst hn0
          obtain ⟨z, hz, hz2⟩ := zero_search (path := path) (k := s.k) (br := s.brace) (cur := s.cur) hv hseg he hcon hlen
          refine ⟨{ s with offset := z.offset, brace := z.brace, cur := z.cur }, ?_, fin _ _ _ hz2, Nat.le_refl _⟩
          rw [coreStep, if_pos (by rw [hb]; simp), hcur, hat]
          rw [hcur] at hz
          simp [hz]
        · obtain ⟨a, ha, ha1, ha2⟩ := arr_search (path := path) (k := s.k) (br := s.brace) (cur := s.cur) hn0 hv hseg he hcon hlen
          refine ⟨{ s with offset := a.offset, brace := a.brace, cur := a.cur }, ?_, fin _ _ _ ha2, Nat.le_refl _⟩
          rw [coreStep, if_pos (by rw [hb]; simp), hcur, hat]
          rw [hcur] at ha
          simp [hn0, ha, ha1]
  | obj g ms =>
    have hne : ms ≠ [] := by
      rintro rfl; simp [findAt, childAt, memberAt] at hf
    obtain ⟨h1, h2⟩ := seg_obj hne hseg
    obtain ⟨t', ht, hfound, hkle, hout⟩ := key_loop (json := json) (path := path) ps (ms := ms) (g := g)
      (i := s.offset + 1) (t := ⟨s.k, s.k + 1, false, false, 0, 0, s.offset, s.brace, s.cur, s.keyStart⟩)
      (f := f) hv h2 (prevOk_succ h1 (by decide)) (by omega) rfl rfl rfl hks (by rw [hcur]; exact hd) (by rw [hcur]; exact hf)
    simp only [Nat.add_sub_cancel] at hout
    refine ⟨t'.toCore, ?_, hout, ?_⟩
    · rw [coreStep, if_neg (by rw [hb]; simp),
        forUp_next (s' := ⟨s.k, s.k + 1, false, false, 0, 0, s.offset, s.brace, s.cur, s.keyStart⟩) (lt_of_getElem? h1)
          (by simp [keyBody, h1, isJSONChar]), ht]
      simp [hfound, KeySt.toCore]
    · exact hkle

/-- The path loop of `core` on a path that leads to a value. -/
theorem loop_ok {w : Json} {pos : Nat} {ks : Int} : ∀ (fuel : Nat) {v : Json} {p : Bytes} {ps : List Bytes} {f : Found} {s : CoreSt},
    path.length ≤ s.k + fuel →
    path.drop s.k = p :: ps → s.cur = p → v.wf → s.brace = v.first →
    Seg json s.offset v.render → findAt v (p :: ps) = some f → s.keyStart = -1 →
    f.val = w → s.offset + f.pos = pos → ksOf s.offset f.key = ks →
    ∃ t, coreLoop json path fuel s = .done t ∧ skipSpaces json t.offset = some pos ∧ 0 < t.offset ∧
      t.keyStart = ks := by
  intro fuel
  induction fuel with
  | zero =>
    intro v p ps f s hfuel hd
    have := congrArg List.length hd; simp at this; omega
  | succ fuel ih =>
    intro v p ps f s hfuel hd hcur hv hb hseg hf hks hw hpos hk
    obtain ⟨t, ht, hout, hle⟩ := step_ok hd hcur hv hb hseg hf hks
    have hlen : s.k < path.length := by
      have := congrArg List.length hd; simp at this; omega
    rw [coreLoop, if_pos hlen, ht]
    simp only
    rw [hw, hpos, hk] at hout
    cases hout with
    | last h1 h2 h3 h4 =>
      refine ⟨{ t with k := t.k + 1 }, ?_, h2, h3, h4⟩
      cases fuel with
      | zero => rfl
      | succ n => rw [coreLoop, if_neg (by simp only; omega)]
    | more hd' hcur' hc' hv' hb' hseg' hf' hw' hpos' hks' hk1' =>
      exact ih (s := { t with k := t.k + 1 }) (by simp only; omega) hd' hcur' hv' hb' hseg' hf' hk1' hw' hpos' hks'

/-- The document begins as it should; what follows the root may be anything. -/
def _root_.Jin.Spec.Doc.opens (d : Doc) : Prop := Ws d.lead ∧ d.root.wf

theorem opens_of_wf {d : Doc} (hd : d.wf) : d.opens := by
  simp only [Doc.wf, Bool.and_eq_true] at hd
  exact hd.1

/-- **`core` on a well-formed document and a path that leads to a value.** -/
theorem core_found_open {d : Doc} {path : List Bytes} {f : Found} (hd : d.opens) (hp : path ≠ [])
    (hf : findAt d.root path = some f) (js : Bool) :
    core d.render js path = .ok
      ⟨ksOf d.lead.length f.key,
       if js then d.lead.length + f.pos else (span (d.lead.length + f.pos) f.val).1,
       if js then 0 else (span (d.lead.length + f.pos) f.val).2⟩ := by
  obtain ⟨p, ps, rfl⟩ := List.exists_cons_of_ne_nil hp
  obtain ⟨w1, w2⟩ := hd
  have hseg0 : Seg d.render 0 (d.lead ++ (d.root.render ++ d.trail)) := seg_self _
  rw [seg_append, seg_append] at hseg0
  obtain ⟨h1, h2, _⟩ := hseg0
  simp only [Nat.zero_add] at h2
  have hfs := find_seg hp w2 h2 hf
  have hlen : ¬ d.render.length < 2 := by
    obtain ⟨c, hc, _⟩ := hfs.2.2.2
    have := lt_of_getElem? hc
    have := hfs.2.2.1
    have := List.length_pos_iff.2 (render_ne_nil hfs.2.1)
    omega
  have hsk := skipSpaces_value (i := 0) h1 w1 w2 (by simpa using h2)
  simp only [Nat.zero_add] at hsk
  have hfst := h2.first w2
  obtain ⟨t, ht, t1, t2, t3⟩ := loop_ok (json := d.render) (path := p :: ps) (p :: ps).length
    (v := d.root) (p := p) (ps := ps) (f := f) (s := ⟨0, d.lead.length, d.root.first, p, -1⟩)
    (by simp) rfl rfl w2 rfl h2 hf rfl rfl rfl rfl
  simp only [core, if_neg hlen, hsk, hfst, ht]
  simp only [coreTail, beq_iff_eq, Nat.ne_of_gt t2, if_false, t1, t3]
  cases js with
  | true => simp
  | false =>
    simp only [Bool.false_eq_true, if_false]
    rw [hfs.1.first hfs.2.1]
    simp only
    rw [extent_ok hfs.2.1 hfs.1 hfs.2.2.2]

theorem core_found {d : Doc} {path : List Bytes} {f : Found} (hd : d.wf) (hp : path ≠ [])
    (hf : findAt d.root path = some f) (js : Bool) :
    core d.render js path = .ok
      ⟨ksOf d.lead.length f.key,
       if js then d.lead.length + f.pos else (span (d.lead.length + f.pos) f.val).1,
       if js then 0 else (span (d.lead.length + f.pos) f.val).2⟩ :=
  core_found_open (opens_of_wf hd) hp hf js

end

end Jin

import Verif.Proof.GetSet
import Verif.Proof.Tree
/-!
# Proof.Reach — `core` follows a path as far as it leads

`At res v i k p` says: the rest of the computation of `core`, whose result is `res`, is
about to look for the path entry `p` (number `k`) in the container `v`, whose text starts
at index `i`.
-/

namespace Jin
open Spec

section
variable {json : Bytes} {path : List Bytes}

/-- The key loop entered at index `i`, followed by the rest of the path loop. -/
def contKey (json : Bytes) (path : List Bytes) (fuel i : Nat) (t : KeySt) : LoopRes CoreSt (Out Loc) :=
  match forUp json.length (keyBody json path) i t with
  | .ret r => .ret r
  | .done t =>
    if !t.found then .ret (.err (.keyNotFound t.cur))
    else coreLoop json path fuel ⟨t.k + 1, t.offset, t.brace, t.cur, t.keyStart⟩

inductive At (json : Bytes) (path : List Bytes) (res : LoopRes CoreSt (Out Loc)) (v : Json) (i k : Nat) (p : Bytes) : Prop where
  | arr {g : Text} {es : List (Elem Json)} {fuel : Nat} {s : CoreSt} (hv : v = .arr g es)
      (hr : res = coreLoop json path (fuel + 1) s) (hk : s.k = k) (ho : s.offset = i) (hb : s.brace = 91)
      (hc : s.cur = p) (hks : s.keyStart = -1) (hf : path.length ≤ k + fuel + 1)
  | obj {g : Text} {ms : List (Member Json)} {fuel : Nat} {t : KeySt} (hv : v = .obj g ms)
      (hr : res = contKey json path fuel (i + 1) t) (hl : t.level = k + 1) (hk : t.k = k) (hq : t.inQuote = false)
      (hfd : t.found = false) (hc : t.cur = p) (hks : t.keyStart = -1) (hf : path.length ≤ k + fuel + 1)
      (hst : t.start = 0 ∧ t.stop = 0 ∨ ∃ key, 0 < k ∧ path[k - 1]? = some key ∧ strOk key ∧
        Seg json t.start (key ++ [34]) ∧ t.stop = t.start + key.length ∧ t.stop < i)

theorem at_start {v : Json} {fuel : Nat} {s : CoreSt} {p : Bytes} {ps : List Bytes} (hv : v.wf) (hcon : v.isContainer)
    (hd : path.drop s.k = p :: ps) (hs : Seg json s.offset v.render) (hb : s.brace = v.first) (hc : s.cur = p)
    (hks : s.keyStart = -1) (hf : path.length ≤ s.k + fuel + 1) :
    At json path (coreLoop json path (fuel + 1) s) v s.offset s.k p := by
  have hlen : s.k < path.length := by
    have := congrArg List.length hd; simp at this; omega
  cases v with
  | lit t => simp [Json.isContainer] at hcon
  | str t => simp [Json.isContainer] at hcon
  | arr g es => exact .arr rfl rfl rfl rfl (by rw [hb, first_arr]) hc hks hf
  | obj g ms =>
    have h1 : json[s.offset]? = some 123 := by have := hs.first hv; rwa [first_obj] at this
    refine .obj (fuel := fuel)
      (t := ⟨s.k, s.k + 1, false, false, 0, 0, s.offset, s.brace, s.cur, s.keyStart⟩) rfl ?_ rfl rfl rfl rfl hc hks hf (.inl ⟨rfl, rfl⟩)
    rw [coreLoop, if_pos hlen, coreStep, if_neg (by rw [hb]; simp), contKey,
      forUp_next (s' := ⟨s.k, s.k + 1, false, false, 0, 0, s.offset, s.brace, s.cur, s.keyStart⟩) (lt_of_getElem? h1)
        (by simp [keyBody, h1, isJSONChar])]
    cases forUp json.length (keyBody json path) (s.offset + 1)
        ⟨s.k, s.k + 1, false, false, 0, 0, s.offset, s.brace, s.cur, s.keyStart⟩ with
    | ret r => rfl
    | done t =>
      simp only
      cases t.found <;> rfl

theorem drop_next {k : Nat} {p q : Bytes} {ps : List Bytes} (hd : path.drop k = p :: q :: ps) :
    path.drop (k + 1) = q :: ps ∧ path[k + 1]? = some q ∧ k + 1 < path.length := by
  refine ⟨by rw [← List.drop_drop, hd]; rfl, ?_, ?_⟩
  · have : (path.drop k)[1]? = some q := by rw [hd]; rfl
    rwa [List.getElem?_drop] at this
  · have := congrArg List.length hd; simp at this; omega

/-- From a container to a child that is a container. -/
theorem at_step {res : LoopRes CoreSt (Out Loc)} {v : Json} {i k : Nat} {p q : Bytes} {ps : List Bytes} {f : Found}
    (hat : At json path res v i k p) (hd : path.drop k = p :: q :: ps) (hv : v.wf) (hseg : Seg json i v.render)
    (hf : childAt v p = some f) (hcon : f.val.isContainer) : At json path res f.val (i + f.pos) (k + 1) q := by
  obtain ⟨hd1, hnext, hlen⟩ := drop_next hd
  obtain ⟨c1, c2, c3, -⟩ := child_seg hv hseg hf
  cases hat with
  | @arr g es fuel s hv' hr hk ho hb hc hks hfuel =>
    subst hv'
    simp only [childAt, Option.map_eq_some_iff, Option.bind_eq_some_iff, Prod.exists] at hf
    obtain ⟨o, w, ⟨n, hn, he⟩, rfl⟩ := hf
    have hai := readIndex_some hn
    obtain ⟨fuel, rfl⟩ : ∃ m, fuel = m + 1 := ⟨fuel - 1, by omega⟩
    have step : ∃ off br, off = i + (1 + o) ∧ br = w.first ∧
        coreStep json path s = .done { s with offset := off, brace := br, cur := q } := by
      rw [coreStep, if_pos (by simp [hb]), hc, hai]
      by_cases hn0 : n = 0
      · subst hn0
        obtain ⟨z, hz, hz2⟩ := zero_search (path := path) (k := k) (br := s.brace) (cur := p) hv hseg he (Or.inr hcon) (by omega)
        rcases hz2 with ⟨h1, -⟩ | ⟨-, h2, h3, h4⟩
        · omega
        · rw [hnext] at h4
          have h5 := Option.some.inj h4
          refine ⟨z.offset, z.brace, h2, h3, ?_⟩
          simp [hk, ho, hz, h5]
      · obtain ⟨a, ha, ha1, ha2⟩ := arr_search (path := path) (k := k) (br := s.brace) (cur := p) hn0 hv hseg he (Or.inr hcon) (by omega)
        rcases ha2 with ⟨h1, -⟩ | ⟨-, h2, h3, h4⟩
        · omega
        · rw [hnext] at h4
          have h5 := Option.some.inj h4
          refine ⟨a.offset, a.brace, h2, h3, ?_⟩
          simp [hk, ho, ha, h5, hn0, ha1]
    obtain ⟨off, br, ho', hb', hst⟩ := step
    have := at_start (json := json) (path := path) (v := w) (fuel := fuel) (s := { s with k := s.k + 1, offset := off, brace := br, cur := q })
      (p := q) (ps := ps) c2 hcon (by simp only [hk]; exact hd1) (by simp only [ho']; exact c1) hb' rfl hks (by simp only; omega)
    rw [hr, coreLoop, if_pos (by omega), hst]
    simp only at this ⊢
    rw [ho', hk] at this
    rw [ho', hk]
    exact this
  | @obj g ms fuel t hv' hr hl hk hq hfd hc hks hfuel hst =>
    clear hst
    subst hv'
    simp only [childAt, Option.map_eq_some_iff, Prod.exists] at hf
    obtain ⟨kp, o, w, hm, rfl⟩ := hf
    have hs := (seg_obj (memberAt_ne hm) hseg).2
    have hp := prevOk_succ (seg_obj (memberAt_ne hm) hseg).1 (by decide)
    have hw := (wf_obj.1 hv).2
    simp only at c1 c2 hcon ⊢
    subst hk
    clear hseg hv c1 c3
    rw [show i + (1 + o) = i + 1 + o by omega]
    generalize i + 1 = j at *
    induction ms generalizing j t kp o with
    | nil => simp [memberAt] at hm
    | cons m ms ihm =>
      rw [memberAt] at hm
      by_cases hkey : m.key = p
      · simp only [hkey, if_true, Option.some.injEq, Prod.mk.injEq] at hm
        obtain ⟨rfl, rfl, rfl⟩ := hm
        obtain ⟨r1, hsame⟩ := key_to_colon (path := path) hl hq hfd hw hs hp
        obtain ⟨_, _, w2, h2, _, _, h4, w4, h5, w5, h6, _⟩ := member_parts hw hs
        have hfst := h6.first w5
        have epos : j + (m.l.length + p.length + m.m.length + m.l2.length + 3) =
            j + m.l.length + (m.key.length + 2) + m.m.length + 1 + m.l2.length := by rw [hkey]; omega
        rw [epos]
        have run : forUp json.length (keyBody json path) j t = forUp json.length (keyBody json path)
            (j + m.l.length + (m.key.length + 2) + m.m.length + 1 + m.l2.length)
            { t with start := j + m.l.length + 1, stop := j + m.l.length + (m.key.length + 1), offset := j + m.l.length + (m.key.length + 2) + m.m.length + 1, found := true } := by
          rw [r1, forUp_next (lt_of_getElem? h4) (keyBody_hit_more
            (t := { t with start := j + m.l.length + 1, stop := j + m.l.length + (m.key.length + 1) }) h4 hl hq
            ((hsame t.cur).trans (decide_eq_true (hkey.trans hc.symm))) (Nat.ne_of_lt hlen)), key_ws w4 h5]
        cases hv : m.v with
        | lit _ => rw [hv] at hcon; simp [Json.isContainer] at hcon
        | str _ => rw [hv] at hcon; simp [Json.isContainer] at hcon
        | arr g' es' =>
          rw [hv, first_arr] at hfst
          obtain ⟨fuel, rfl⟩ : ∃ n, fuel = n + 1 := ⟨fuel - 1, by omega⟩
          refine .arr (fuel := fuel) rfl (hr.trans ?_) rfl rfl rfl rfl rfl (by omega)
            (s := ⟨t.k + 1, j + m.l.length + (m.key.length + 2) + m.m.length + 1 + m.l2.length, 91, q, -1⟩)
          rw [contKey, run, forUp_brk (lt_of_getElem? hfst) (keyBody_arr
            (t := { t with start := j + m.l.length + 1, stop := j + m.l.length + (m.key.length + 1), offset := j + m.l.length + (m.key.length + 2) + m.m.length + 1, found := true }) hfst hq rfl hnext)]
          simp [hks]
        | obj g' ms' =>
          rw [hv, first_obj] at hfst
          refine .obj (fuel := fuel) rfl (hr.trans ?_) ?_ rfl ?_ rfl rfl ?_ (by omega) ?_
            (t := { t with start := j + m.l.length + 1, stop := j + m.l.length + (m.key.length + 1), offset := j + m.l.length + (m.key.length + 2) + m.m.length + 1, found := false, k := t.k + 1, cur := q, level := t.level + 1 })
          · rw [contKey, run, forUp_next (lt_of_getElem? hfst) (keyBody_obj
              (t := { t with start := j + m.l.length + 1, stop := j + m.l.length + (m.key.length + 1), offset := j + m.l.length + (m.key.length + 2) + m.m.length + 1, found := true }) hfst hq rfl hnext)]
            rfl
          · simp [hl]
          · exact hq
          · exact hks
          · refine .inr ⟨m.key, by omega, ?_, w2, ?_, ?_, ?_⟩
            · rw [hkey, Nat.add_sub_cancel, ← Nat.add_zero t.k, ← List.getElem?_drop, hd]; rfl
            · exact (seg_cons.1 h2).2
            · simp only; omega
            · simp only; omega
      · simp only [hkey, if_false, Option.map_eq_some_iff, Prod.exists, Prod.mk.injEq] at hm
        obtain ⟨kp', o', v', hm, rfl, rfl, rfl⟩ := hm
        obtain ⟨r1, h1, h2⟩ := key_mismatch (path := path) hl hq hfd hw hs hp (by rw [hc]; exact hkey) (memberAt_ne hm)
        rw [show j + (memberLen m + 1 + o') = j + memberLen m + 1 + o' by omega]
        refine ihm (j := j + memberLen m + 1) (t := { t with start := j + m.l.length + 1, stop := j + m.l.length + (m.key.length + 1) })
          hq hfd hc hks kp' o' hm ((wfMembers_cons m ms).1 hw).2.2.2.2.2.2 hd hd1 hnext hlen hl hfuel ?_ h1 h2
        rw [hr, contKey, contKey, r1]

/-- Along a path. -/
theorem at_path (pre : List Bytes) : ∀ {res : LoopRes CoreSt (Out Loc)} {v : Json} {i k : Nat} {p q : Bytes} {ps qs : List Bytes} {f : Found},
    At json path res v i k p → pre ++ q :: qs = p :: ps → path.drop k = p :: ps → v.wf → Seg json i v.render →
    findAt v pre = some f → f.val.isContainer → At json path res f.val (i + f.pos) (k + pre.length) q := by
  induction pre with
  | nil =>
    intro res v i k p q ps qs f hat he hd hv hs hf hcon
    simp only [findAt, Option.some.injEq] at hf
    subst hf
    simp only [List.nil_append, List.cons.injEq] at he
    rw [he.1]; exact hat
  | cons x pre ih =>
    intro res v i k p q ps qs f hat he hd hv hs hf hcon
    simp only [List.cons_append, List.cons.injEq] at he
    obtain ⟨rfl, rfl⟩ := he
    rw [findAt] at hf
    cases hc : childAt v x with
    | none => simp [hc] at hf
    | some c =>
      simp only [hc] at hf
      obtain ⟨c1, c2, -, -⟩ := child_seg hv hs hc
      by_cases he : pre.isEmpty
      · simp only [he, if_true, Option.some.injEq] at hf
        subst hf
        rw [List.isEmpty_iff] at he; subst he
        exact at_step hat hd hv hs hc hcon
      · simp only [he, Bool.false_eq_true, if_false, Option.map_eq_some_iff] at hf
        obtain ⟨f', h', rfl⟩ := hf
        obtain ⟨y, pre, rfl⟩ := List.exists_cons_of_ne_nil (by simpa using he : pre ≠ [])
        have hat' := at_step hat (q := y) (ps := pre ++ q :: qs) hd hv hs hc (container_of_find h')
        have := ih hat' rfl (drop_next hd).1 c2 c1 h' hcon
        simp only [Found.shift]
        rw [show i + (c.pos + f'.pos) = i + c.pos + f'.pos by omega, List.length_cons,
          show k + ((y :: pre).length + 1) = k + 1 + (y :: pre).length by omega]
        exact this

/-- What `core` does with the result of the path loop. -/
def coreEnd (json : Bytes) (js : Bool) : LoopRes CoreSt (Out Loc) → Out Loc
  | .ret r => r
  | .done s => coreTail json js s

/-- `core` on a path whose part `pre` leads to a container. -/
theorem core_at_open {d : Doc} {pre : List Bytes} {q : Bytes} {qs : List Bytes} {f : Found} (hd : d.opens)
    (hf : findAt d.root pre = some f) (hcon : f.val.isContainer) :
    ∃ res, At d.render (pre ++ q :: qs) res f.val (d.lead.length + f.pos) pre.length q ∧
      ∀ js, core d.render js (pre ++ q :: qs) = coreEnd d.render js res := by
  obtain ⟨w1, w2⟩ := hd
  have hseg := doc_seg d
  obtain ⟨p, ps, hps⟩ : ∃ p ps, pre ++ q :: qs = p :: ps := by
    cases pre with
    | nil => exact ⟨_, _, rfl⟩
    | cons x pre => exact ⟨_, _, rfl⟩
  have hroot : d.root.isContainer := by
    cases pre with
    | nil => simp only [findAt, Option.some.injEq] at hf; subst hf; exact hcon
    | cons x pre => exact container_of_find hf
  have hlen : ¬ d.render.length < 2 := by
    have := hseg.le (render_ne_nil w2)
    have h2 : 2 ≤ d.root.render.length := by
      cases hr : d.root with
      | lit t => rw [hr] at hroot; simp [Json.isContainer] at hroot
      | str t => rw [hr] at hroot; simp [Json.isContainer] at hroot
      | arr g es => rw [render_arr]; simp
      | obj g es => rw [render_obj]; simp
    omega
  have h0 : Seg d.render 0 d.lead := by
    have : Seg d.render 0 (d.lead ++ (d.root.render ++ d.trail)) := seg_self _
    rw [seg_append] at this; exact this.1
  have hsk := skipSpaces_value (i := 0) h0 w1 w2 (by simpa using hseg)
  simp only [Nat.zero_add] at hsk
  have hfst := hseg.first w2
  have hat := at_start (json := d.render) (path := p :: ps) (v := d.root) (fuel := ps.length) (s := ⟨0, d.lead.length, d.root.first, p, -1⟩)
    (p := p) (ps := ps) w2 hroot rfl hseg rfl rfl rfl (by simp)
  refine ⟨coreLoop d.render (p :: ps) (ps.length + 1) ⟨0, d.lead.length, d.root.first, p, -1⟩, ?_, ?_⟩
  · have := at_path pre hat (q := q) (qs := qs) hps rfl w2 hseg hf hcon
    simp only [Nat.zero_add] at this
    rw [hps]; exact this
  · intro js
    rw [hps]
    simp only [core, if_neg hlen, hsk, hfst, List.length_cons]
    cases coreLoop d.render (p :: ps) (ps.length + 1) ⟨0, d.lead.length, d.root.first, p, -1⟩ <;> rfl

theorem core_at {d : Doc} {pre : List Bytes} {q : Bytes} {qs : List Bytes} {f : Found} (hd : d.wf)
    (hf : findAt d.root pre = some f) (hcon : f.val.isContainer) :
    ∃ res, At d.render (pre ++ q :: qs) res f.val (d.lead.length + f.pos) pre.length q ∧
      ∀ js, core d.render js (pre ++ q :: qs) = coreEnd d.render js res :=
  core_at_open (opens_of_wf hd) hf hcon

end

end Jin

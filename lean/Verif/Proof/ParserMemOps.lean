import Verif.Proof.ParserMem
/-!
# Proof.ParserMemOps — the methods of a parser whose bytes are slices in memory
-/

namespace Jin
variable {b k : BHeap} {h : MHeap} {grow : Nat → Nat} {m : Mem} {p : ParserM}

/-- All slices lie in their arrays. -/
def Mem.ok (m : Mem) : Prop := m.nodes.ok m.bytes

def ParserM.see (b : BHeap) (p : ParserM) : ParserP := ⟨p.core, b.read p.json⟩

/-- The result of a mutator in memory, and that of the mutator on nodes with bytes: no array of `b` has changed. -/
def PMRel (b : BHeap) : PResM → PResP → Prop
  | .panic, .panic => True
  | .done p m e, .done q h e' => e = e' ∧ (∃ new, m.bytes = b ++ new) ∧ m.ok ∧ p.json.ok m.bytes ∧ h = m.see ∧ q = p.see m.bytes
  | _, _ => False

theorem PMRel.same (hm : m.ok) (hp : p.json.ok m.bytes) {e : Option Err} : PMRel m.bytes (.done p m e) (.done (p.see m.bytes) m.see e) :=
  ⟨rfl, ⟨[], by simp⟩, hm, hp, rfl, rfl⟩

/-- The parts of a result in memory. -/
theorem PMRel.mk {core : Nat} {bytes : BHeap} {json : BSlice} {h : MHeap} {e : Option Err} (new : List Bytes) (hb : bytes = b ++ new) (hh : h.ok bytes)
    (hj : json.ok bytes) : PMRel b (.done ⟨core, json⟩ ⟨bytes, h⟩ e) (.done ⟨core, bytes.read json⟩ (h.see bytes) e) :=
  ⟨rfl, ⟨new, hb⟩, hh, hj, rfl, rfl⟩

theorem Apart.use {json : BSlice} {r : MutS × BHeap} {v : Mut} (hj : json.ok b) (ha : Apart b json r v) :
    (∃ b', r = (.panic, b') ∧ v = .panic) ∨
    ∃ s e new, r = (.done s e, b ++ new) ∧ v = .done (BHeap.read (b ++ new) s) e ∧ s.ok (b ++ new) := by
  obtain ⟨x, b'⟩ := r
  obtain ⟨⟨new, rfl⟩, hm⟩ := ha
  cases x with
  | panic => exact .inl ⟨_, rfl, hm⟩
  | done s e =>
    cases e with
    | none => obtain ⟨-, -, h3, h4⟩ := hm; exact .inr ⟨s, none, new, rfl, h4, h3⟩
    | some e =>
      obtain ⟨rfl, rfl⟩ := hm
      refine .inr ⟨s, some e, new, rfl, ?_, ok_append hj⟩
      rw [read_append hj]

/-- `Parse` -/
theorem parse_rel {json : BSlice} (hj : json.ok m.bytes) (hm : m.ok) :
    match ParseM json m, ParseP (m.bytes.read json) m.see with
    | .ok (p, m'), .ok (q, h) => m'.bytes = m.bytes ∧ m'.ok ∧ p.json = json ∧ q = p.see m'.bytes ∧ h = m'.see
    | .err e, .err e' => e = e'
    | .panic, .panic => True
    | _, _ => False := by
  unfold ParseM ParseP
  have hc := pCoreM_rel hj (create_ok hm) (createNodeM m.nodes none).2
  rw [Mem.see, create_see]
  simp only
  cases h1 : pCoreM m.bytes json (createNodeM m.nodes none).2 (createNodeM m.nodes none).1 <;>
    cases h2 : pCoreP (m.bytes.read json) (createNodeM m.nodes none).2 ((createNodeM m.nodes none).1.see m.bytes) <;>
    rw [h1, h2] at hc <;> first | trivial | exact hc.elim | skip
  rename_i h' _
  obtain ⟨a1, rfl⟩ := hc
  simp only [see_get]
  cases h'[(createNodeM m.nodes none).2]? with
  | none => trivial
  | some r =>
    simp only [Option.map_some]
    rw [show (r.see m.bytes).down = r.down from rfl]
    cases r.down with
    | nil => trivial
    | cons c _ => exact ⟨rfl, a1, rfl, rfl, rfl⟩

/-- A slice that a reading method gives, and the bytes that it gives on nodes with bytes. -/
def ReadRel (b : BHeap) : Out BSlice → Out Bytes → Prop
  | .ok s, .ok v => s.ok b ∧ v = b.read s
  | .err e, .err e' => e = e'
  | .panic, .panic => True
  | _, _ => False

theorem idx_ne {x : Bytes} {i : Int} {e : Err} : idx x i ≠ .err e := by
  unfold idx
  split <;> intro h <;> cases h

theorem slice_ne {x : Bytes} {i j : Int} {e : Err} : slice x i j ≠ .err e := by
  unfold slice
  split <;> intro h <;> cases h

theorem cleanValue_ne {x : Bytes} {e : Err} : cleanValue x ≠ .err e := by
  unfold cleanValue
  split
  · intro h; cases h
  · simp only [unquoteSlice]
    generalize (firstNS x 0 (x.length - 1)).getD (x.length - 1) = a
    generalize (lastNS x (a + 1) x.length).getD a = z
    cases h1 : idx x (a : Int) with
    | err e => exact absurd h1 idx_ne
    | panic => intro h; cases h
    | ok c =>
      show (if (c == 34) = true then (idx x (z : Int) >>= fun d => if (d == 34) = true then _ else _) else _) ≠ _
      split
      · cases h2 : idx x (z : Int) with
        | err e => exact absurd h2 idx_ne
        | panic => intro h; cases h
        | ok d =>
          show (if (d == 34) = true then slice _ _ _ else slice _ _ _) ≠ _
          split <;> exact slice_ne
      · exact slice_ne

theorem clean_read {s : BSlice} (hs : s.ok b) :
    ReadRel b (match cleanValueMem b s with | none => .panic | some s => .ok s) (cleanValue (b.read s)) := by
  have hr := clean_rel hs
  cases h1 : cleanValueMem b s <;> cases h2 : cleanValue (b.read s) <;> rw [h1, h2] at hr <;> first | trivial | exact hr.elim | skip
  · exact absurd h2 cleanValue_ne
  · exact ⟨hr.1.ok hs, hr.2.symm⟩

theorem get_rel (hm : m.ok) (hp : p.json.ok m.bytes) (path : List Bytes) :
    ReadRel m.bytes (p.Get m path) ((p.see m.bytes).Get m.see path) := by
  unfold ParserM.Get ParserP.Get
  split
  · exact ⟨hp, rfl⟩
  · rw [show (p.see m.bytes).core = p.core from rfl]
    cases m.see.walk p.core path with
    | panic => trivial
    | err e => exact rfl
    | ok c =>
      simp only [Mem.see, see_get]
      cases hc : m.nodes[c]? with
      | none => trivial
      | some r => exact clean_read (MHeap.ok.get hm hc).2

/-- `GetNew` -/
theorem getNew_rel (hm : m.ok) (fuel : Nat) (path : List Bytes) :
    (∃ new, (p.GetNew grow m fuel path).2.bytes = m.bytes ++ new) ∧ (p.GetNew grow m fuel path).2.nodes = m.nodes ∧
    ReadRel (p.GetNew grow m fuel path).2.bytes (p.GetNew grow m fuel path).1 ((p.see m.bytes).GetNew m.see fuel path) := by
  unfold ParserM.GetNew ParserP.GetNew
  rw [show (p.see m.bytes).core = p.core from rfl]
  cases m.see.walk p.core path with
  | panic => exact ⟨⟨[], by simp⟩, rfl, trivial⟩
  | err e => exact ⟨⟨[], by simp⟩, rfl, nil_ok, nil_read.symm⟩
  | ok c =>
    have hg : m.see[c]? = m.nodes[c]?.map (NodeM.see m.bytes) := see_get c
    simp only [hg]
    cases hc : m.nodes[c]? with
    | none => exact ⟨⟨[], by simp⟩, rfl, trivial⟩
    | some r =>
      simp only [Option.map_some]
      rw [show (r.see m.bytes).down = r.down from rfl, show (r.see m.bytes).value = m.bytes.read r.value from rfl]
      split
      · have := clean_read (MHeap.ok.get hm hc).2
        cases hv : cleanValueMem m.bytes r.value with
        | none => rw [hv] at this; exact ⟨⟨[], by simp⟩, rfl, this⟩
        | some s => rw [hv] at this; exact ⟨⟨[], by simp⟩, rfl, this⟩
      · cases m.see.dive fuel c with
        | panic => exact ⟨⟨[], by simp⟩, rfl, trivial⟩
        | err e => exact ⟨⟨[], by simp⟩, rfl, rfl⟩
        | ok t =>
          have := clean_read (b := fresh m.bytes t (grow t.length)) (s := freshS m.bytes t (grow t.length)) fresh_ok
          rw [fresh_read] at this
          simp only [ofString_fresh]
          cases hv : cleanValueMem (fresh m.bytes t (grow t.length)) (freshS m.bytes t (grow t.length)) with
          | none =>
            rw [hv] at this
            refine ⟨⟨[], by simp⟩, rfl, ?_⟩
            show ReadRel m.bytes .panic (cleanValue t)
            cases hw : cleanValue t <;> rw [hw] at this <;> first | trivial | exact this.elim
          | some s => rw [hv] at this; exact ⟨⟨_, rfl⟩, rfl, this⟩

theorem climb_rel {json : BSlice} (hj : json.ok b) : ∀ (qs : List (List Bytes)) (curr : Nat) (h : MHeap), h.ok b →
    OptRel (fun x y => x.1.ok b ∧ y = (x.1.see b, x.2)) (climbM b json qs curr h) (climb (b.read json) qs curr (h.see b))
  | [], _, h, hh => ⟨hh, rfl⟩
  | q :: qs, curr, h, hh => by
    unfold climbM climb
    rw [see_up]
    cases h[curr]?.bind NodeM.up with
    | none => trivial
    | some u =>
      have hg := getMem_rel q hj
      simp only
      cases h1 : GetMem b json q <;> cases h2 : Get (b.read json) q <;> rw [h1, h2] at hg <;> first | trivial | exact hg.elim | skip
      · obtain ⟨w1, rfl⟩ := hg
        have := climb_rel hj qs u (h.setValue u _) (hh.setValue (w1.ok hj))
        rw [see_setValue] at this
        exact this
      · obtain rfl := hg
        refine ⟨hh.setValue nil_ok, ?_⟩
        simp only [see_setValue, nil_read]

theorem climbQuiet_rel {json : BSlice} (hj : json.ok b) : ∀ (qs : List (List Bytes)) (curr : Nat) (h : MHeap), h.ok b →
    OptRel (fun x y => x.ok b ∧ y = x.see b) (climbQuietM b json qs curr h) (climbQuiet (b.read json) qs curr (h.see b))
  | [], _, h, hh => ⟨hh, rfl⟩
  | q :: qs, curr, h, hh => by
    unfold climbQuietM climbQuiet
    rw [see_up]
    cases h[curr]?.bind NodeM.up with
    | none => trivial
    | some u =>
      have hg := getMem_rel q hj
      simp only
      cases h1 : GetMem b json q <;> cases h2 : Get (b.read json) q <;> rw [h1, h2] at hg <;> first | trivial | exact hg.elim | skip
      · obtain ⟨w1, rfl⟩ := hg
        have := climbQuiet_rel hj qs u (h.setValue u _) (hh.setValue (w1.ok hj))
        rw [see_setValue] at this
        exact this
      · have := climbQuiet_rel hj qs u (h.setValue u .nil) (hh.setValue nil_ok)
        rw [see_setValue, nil_read] at this
        exact this

theorem finish_rel {new : List Bytes} {json : BSlice} (hj : json.ok (b ++ new)) (hh : h.ok b) (q : ParserP) (hq : q.core = p.core) (qs : List (List Bytes))
    (curr : Nat) : PMRel b (finishM p (b ++ new) json qs curr h) (finishP q (BHeap.read (b ++ new) json) qs curr (h.see b)) := by
  have := climb_rel hj qs curr h hh.more
  rw [MHeap.see_more hh] at this
  unfold finishM finishP
  cases h1 : climbM (b ++ new) json qs curr h <;> cases h2 : climb (BHeap.read (b ++ new) json) qs curr (h.see b) <;> rw [h1, h2] at this <;>
    first | trivial | exact this.elim | skip
  rename_i x y
  obtain ⟨h', e⟩ := x
  obtain ⟨a1, rfl⟩ := this
  refine ⟨rfl, ⟨new, rfl⟩, a1, hj, rfl, ?_⟩
  show ParserP.mk q.core _ = ParserP.mk p.core _
  rw [hq]

/-- `Parser.Set` -/
theorem set_rel {newVal : BSlice} (hm : m.ok) (hp : p.json.ok m.bytes) (hv : newVal.ok m.bytes) (path : List Bytes) :
    PMRel m.bytes (p.Set grow m newVal path) ((p.see m.bytes).Set m.see (m.bytes.read newVal) path) := by
  have ha := Apart.use hp (C93_set grow newVal path hp hv)
  unfold ParserM.Set ParserP.Set
  split
  · exact PMRel.same hm hp
  rw [show (p.see m.bytes).core = p.core from rfl, show (p.see m.bytes).json = m.bytes.read p.json from rfl]
  cases m.see.walk p.core path with
  | panic => trivial
  | err e => exact PMRel.same hm hp
  | ok curr =>
    simp only
    split
    · have hc := pCoreM_rel hv (create_ok hm) (createNodeM m.nodes none).2
      rw [Mem.see, create_see]
      simp only
      cases h1 : pCoreM m.bytes newVal (createNodeM m.nodes none).2 (createNodeM m.nodes none).1 <;>
        cases h2 : pCoreP (m.bytes.read newVal) (createNodeM m.nodes none).2 ((createNodeM m.nodes none).1.see m.bytes) <;>
        rw [h1, h2] at hc <;> first | trivial | exact hc.elim | skip
      rename_i h' _
      obtain ⟨a1, rfl⟩ := hc
      simp only [see_get]
      cases hr : h'[curr]? with
      | none => trivial
      | some r =>
        have hrk := a1.get hr
        simp only [Option.map_some]
        rw [show (r.see m.bytes).up = r.up from rfl, show (r.see m.bytes).label = r.label.see m.bytes from rfl, ← see_setLabel, ← see_setUp]
        have hk2 : ((h'.setLabel (createNodeM m.nodes none).2 r.label).setUp (createNodeM m.nodes none).2 r.up).ok m.bytes := (a1.setLabel hrk.1).setUp
        revert hk2
        generalize (h'.setLabel (createNodeM m.nodes none).2 r.label).setUp (createNodeM m.nodes none).2 r.up = h2
        intro hk2
        cases (h2.see m.bytes).getIndex curr with
        | none => trivial
        | some index =>
          cases r.up with
          | none => trivial
          | some up =>
            simp only [see_get]
            cases h2[up]? with
            | none => trivial
            | some u =>
              simp only [Option.map_some]
              rw [show (u.see m.bytes).down = u.down from rfl]
              split
              · rw [← see_setDown, ← see_setValue]
                rcases ha with ⟨b', e1, e2⟩ | ⟨s, e, new, e1, e2, e3⟩
                · rw [e1, e2]; trivial
                · rw [e1, e2]
                  exact finish_rel e3 (hk2.setDown.setValue hv) _ rfl _ _
              · trivial
    · rw [Mem.see, ← see_setValue]
      rcases ha with ⟨b', e1, e2⟩ | ⟨s, e, new, e1, e2, e3⟩
      · rw [e1, e2]; trivial
      · rw [e1, e2]
        exact finish_rel e3 (MHeap.ok.setValue hm hv) _ rfl _ _

theorem upNode (b : BHeap) (h : MHeap) (curr : Nat) :
    ((h.see b)[curr]?.bind NodeRec.up).bind ((h.see b)[·]?) = ((h[curr]?.bind NodeM.up).bind (h[·]?)).map (NodeM.see b) := by
  rw [see_up]
  cases h[curr]?.bind NodeM.up with
  | none => rfl
  | some u => exact see_get u

/-- `Parser.SetKey` -/
theorem setKey_rel (hm : m.ok) (hp : p.json.ok m.bytes) (newKey : Bytes) (path : List Bytes) :
    PMRel m.bytes (p.SetKey grow m newKey path) ((p.see m.bytes).SetKey m.see newKey path) := by
  have ha := Apart.use hp (C93_setKey grow newKey path hp)
  unfold ParserM.SetKey ParserP.SetKey
  split
  · exact PMRel.same hm hp
  split
  · exact PMRel.same hm hp
  rw [show (p.see m.bytes).core = p.core from rfl, show (p.see m.bytes).json = m.bytes.read p.json from rfl]
  cases m.see.walk p.core path with
  | panic => trivial
  | err e => exact PMRel.same hm hp
  | ok curr =>
    have hu : (m.see[curr]?.bind NodeRec.up).bind (m.see[·]?) = _ := upNode m.bytes m.nodes curr
    simp only [hu]
    cases (m.nodes[curr]?.bind NodeM.up).bind (m.nodes[·]?) with
    | none => trivial
    | some u =>
      simp only [Option.map_some]
      rw [show (u.see m.bytes).down = u.down from rfl]
      split
      · exact PMRel.same hm hp
      · rcases ha with ⟨b', e1, e2⟩ | ⟨s, e, new, e1, e2, e3⟩
        · rw [e1, e2]; trivial
        · rw [e1, e2]
          have hk : (m.nodes.setLabel curr (.str newKey)).ok m.bytes := MHeap.ok.setLabel hm trivial
          have := climbQuiet_rel e3 (prefixes path 1 (path.length - 1)) curr (m.nodes.setLabel curr (.str newKey)) hk.more
          rw [MHeap.see_more hk, see_setLabel] at this
          simp only [Mut.json?]
          show PMRel _ _ (match climbQuiet _ _ curr (m.see.setLabel curr newKey) with | none => _ | some h => _)
          cases h1 : climbQuietM (m.bytes ++ new) s (prefixes path 1 (path.length - 1)) curr (m.nodes.setLabel curr (.str newKey)) <;>
            cases h2 : climbQuiet (BHeap.read (m.bytes ++ new) s) (prefixes path 1 (path.length - 1)) curr ((m.nodes.see m.bytes).setLabel curr newKey) <;>
            rw [h1, show Label.see m.bytes (.str newKey) = newKey from rfl, h2] at this <;> rw [show m.see = m.nodes.see m.bytes from rfl, h2] <;>
            first | trivial | exact this.elim | skip
          obtain ⟨a1, rfl⟩ := this
          exact PMRel.mk new rfl a1 e3

/-- `deAttach` -/
theorem deAttach_rel (hm : m.ok) (n : Nat) : OptRel (fun x y => x.ok m.bytes ∧ y = x.see m.bytes) (m.deAttach n) (m.see.deAttach n) := by
  unfold Mem.deAttach NHeap.deAttach Mem.see
  simp only [see_get]
  cases m.nodes[n]? with
  | none => trivial
  | some r =>
    simp only [Option.map_some]
    rw [show (r.see m.bytes).up = r.up from rfl, show (r.see m.bytes).label = r.label.see m.bytes from rfl]
    cases r.up with
    | none => trivial
    | some up =>
      simp only
      cases m.nodes[up]? with
      | none => trivial
      | some u =>
        simp only [Option.map_some]
        rw [show (u.see m.bytes).down = u.down from rfl]
        split
        · trivial
        · refine ⟨MHeap.ok.setDown hm, ?_⟩
          rw [see_setDown]
          congr 1
          refine List.filter_congr fun d _ => ?_
          cases m.nodes[d]? <;> rfl

/-- `Parser.Delete` -/
theorem delete_rel (hm : m.ok) (hp : p.json.ok m.bytes) (path : List Bytes) :
    PMRel m.bytes (p.Delete grow m path) ((p.see m.bytes).Delete m.see path) := by
  have ha := Apart.use hp (C93_delete grow path hp)
  unfold ParserM.Delete ParserP.Delete
  split
  · exact PMRel.same hm hp
  rw [show (p.see m.bytes).core = p.core from rfl, show (p.see m.bytes).json = m.bytes.read p.json from rfl]
  cases m.see.walk p.core path with
  | panic => trivial
  | err e => exact PMRel.same hm hp
  | ok curr =>
    have hd := deAttach_rel hm curr
    simp only
    cases h1 : m.deAttach curr <;> cases h2 : m.see.deAttach curr <;> rw [h1, h2] at hd <;> first | trivial | exact hd.elim | skip
    obtain ⟨d1, rfl⟩ := hd
    rcases ha with ⟨b', e1, e2⟩ | ⟨s, e, new, e1, e2, e3⟩
    · rw [e1, e2]; trivial
    · rw [e1, e2]
      cases e with
      | none => exact finish_rel e3 d1 _ rfl _ _
      | some e =>
        have := PMRel.mk (b := m.bytes) (core := p.core) (e := some e) new rfl (MHeap.ok.more (k := new) d1) e3
        rw [MHeap.see_more d1] at this
        exact this

/-- A node for a value -/
theorem newNode_rel {newVal : BSlice} (hm : m.ok) (hv : newVal.ok m.bytes) (c : Bool) (label : Bytes) :
    OptRel (fun x y => x.1.ok m.bytes ∧ y = (x.1.see m.bytes, x.2)) (newNodeM m c label newVal) (newNodeP m.see c label (m.bytes.read newVal)) := by
  unfold newNodeM newNodeP
  rw [Mem.see, create_see]
  simp only
  split
  · have hc := pCoreM_rel hv (create_ok hm) (createNodeM m.nodes none).2
    cases h1 : pCoreM m.bytes newVal (createNodeM m.nodes none).2 (createNodeM m.nodes none).1 <;>
      cases h2 : pCoreP (m.bytes.read newVal) (createNodeM m.nodes none).2 ((createNodeM m.nodes none).1.see m.bytes) <;>
      rw [h1, h2] at hc <;> first | trivial | exact hc.elim | skip
    obtain ⟨a1, rfl⟩ := hc
    refine ⟨(a1.setLabel (l := .str label) trivial).setValue hv, ?_⟩
    simp only [see_setValue, see_setLabel, Label.see]
  · refine ⟨((create_ok hm).setLabel (l := .str label) trivial).setValue hv, ?_⟩
    simp only [see_setValue, see_setLabel, Label.see]

theorem see_attach {curr q : Nat} : (h.attach curr q).see b = (h.see b).attach curr q := by
  unfold MHeap.attach NHeap.attach
  rw [see_setUp, see_addDown]

theorem MHeap.ok.attach (hh : h.ok b) {curr q : Nat} : (h.attach curr q).ok b := hh.addDown.setUp

/-- `replace` of the text at the root. -/
theorem beforeLast_rel {json : BSlice} (hj : json.ok b) (text : Bytes) (bare : Bool) :
    match beforeLastM grow b json text bare, beforeLast (b.read json) (if bare then text else 44 :: text) with
    | some (s, b'), .ok v => (∃ new, b' = b ++ new) ∧ s.ok b' ∧ b.length ≤ s.blk ∧ v = b'.read s
    | none, .panic => True
    | _, _ => False := by
  have hl := bread_length hj
  have key : ∀ (t : BSlice) (x : Bytes), t.ok (fresh b (44 :: text) (grow (44 :: text).length)) →
      BHeap.read (fresh b (44 :: text) (grow (44 :: text).length)) t = x →
      match (match replaceMem grow (fresh b (44 :: text) (grow (44 :: text).length)) json t ((json.len : Int) - 1) ((json.len : Int) - 1) with
        | (none, _) => none
        | (some s, bytes) => some (s, bytes)), beforeLast (b.read json) x with
      | some (s, b'), .ok v => (∃ new, b' = b ++ new) ∧ s.ok b' ∧ b.length ≤ s.blk ∧ v = b'.read s
      | none, .panic => True
      | _, _ => False := by
    intro t x ht hx
    have := replaceMem_spec (grow := grow) (start := (json.len : Int) - 1) (stop := (json.len : Int) - 1)
      (ok_append (k := [(44 :: text) ++ List.replicate (grow (44 :: text).length) 0]) hj) ht (.inl (Int.le_refl _))
    rw [read_append hj] at this
    unfold beforeLast
    rw [hl]
    show match (match replaceMem grow (fresh b (44 :: text) (grow (44 :: text).length)) json t ((json.len : Int) - 1) ((json.len : Int) - 1) with
        | (none, _) => none
        | (some s, bytes) => some (s, bytes)), replace (b.read json) x ((json.len : Int) - 1) ((json.len : Int) - 1) with
      | some (s, b'), .ok v => (∃ new, b' = b ++ new) ∧ s.ok b' ∧ b.length ≤ s.blk ∧ v = b'.read s
      | none, .panic => True
      | _, _ => False
    rw [show BHeap.read (b ++ [(44 :: text) ++ List.replicate (grow (44 :: text).length) 0]) t = x from hx] at this
    cases hr : replace (b.read json) x ((json.len : Int) - 1) ((json.len : Int) - 1) with
    | err e => rw [hr] at this; exact this.elim
    | panic =>
      rw [hr] at this
      obtain ⟨n, e⟩ := this
      rw [show replaceMem grow (fresh b (44 :: text) (grow (44 :: text).length)) json t ((json.len : Int) - 1) ((json.len : Int) - 1) = _ from e]
      trivial
    | ok v =>
      rw [hr] at this
      rw [show replaceMem grow (fresh b (44 :: text) (grow (44 :: text).length)) json t ((json.len : Int) - 1) ((json.len : Int) - 1) = _ from this]
      exact ⟨⟨_, List.append_assoc ..⟩, fresh_ok, by simp [freshS], fresh_read.symm⟩
  unfold beforeLastM
  simp only [ofString_fresh]
  cases bare with
  | false => exact key _ _ fresh_ok fresh_read
  | true =>
    have hs := sub_rel (h := fresh b (44 :: text) (grow (44 :: text).length)) (json := freshS b (44 :: text) (grow (44 :: text).length))
      (lo := 1) (hi := (freshS b (44 :: text) (grow (44 :: text).length)).len) fresh_ok (Int.le_refl _)
    have e : slice (44 :: text) 1 ((freshS b (44 :: text) (grow (44 :: text).length)).len : Nat) = .ok text := by
      have : slice (44 :: text) ((1 : Nat) : Int) ((text.length + 1 : Nat) : Int) = _ := slice_in (by omega) (by simp)
      simpa [freshS] using this
    rw [fresh_read, e] at hs
    simp only [if_true]
    cases hw : (freshS b (44 :: text) (grow (44 :: text).length)).sub 1 (freshS b (44 :: text) (grow (44 :: text).length)).len with
    | none => rw [hw] at hs; exact hs.elim
    | some t =>
      rw [hw] at hs
      exact key t text (hs.1.ok fresh_ok) hs.2

/-- A mutator of the text, and the end of a method that gives its error on. -/
theorem tail_rel {hn : MHeap} {r : MutS × BHeap} {v : Mut} (ha : Apart m.bytes p.json r v) (hp : p.json.ok m.bytes) (hh : hn.ok m.bytes)
    (qs : List (List Bytes)) (q : Nat) :
    PMRel m.bytes
      (match (generalizing := false) r with
        | (.panic, _) => .panic
        | (.done json' (some e), bytes) => .done { p with json := json' } ⟨bytes, hn⟩ (some e)
        | (.done json' none, bytes) => finishM p bytes json' qs q hn)
      (match (generalizing := false) v with
        | .panic => .panic
        | .done json' (some e) => .done ⟨p.core, json'⟩ (hn.see m.bytes) (some e)
        | .done json' none => finishP (p.see m.bytes) json' qs q (hn.see m.bytes)) := by
  rcases ha.use hp with ⟨b', e1, e2⟩ | ⟨s, e, new, e1, e2, e3⟩
  · rw [e1, e2]; trivial
  · rw [e1, e2]
    cases e with
    | none => exact finish_rel e3 hh _ rfl _ _
    | some e =>
      have := PMRel.mk (b := m.bytes) (core := p.core) (e := some e) new rfl (MHeap.ok.more (k := new) hh) e3
      rw [MHeap.see_more hh] at this
      exact this

theorem root_rel {hn : MHeap} (hp : p.json.ok m.bytes) (hh : hn.ok m.bytes) (text : Bytes) (bare : Bool) :
    PMRel m.bytes
      (match beforeLastM grow m.bytes p.json text bare with
        | some (json', bytes) => .done { p with json := json' } ⟨bytes, hn⟩ none
        | none => .panic)
      (match beforeLast (m.bytes.read p.json) (if bare then text else 44 :: text) with
        | .ok json' => .done ⟨p.core, json'⟩ (hn.see m.bytes) none
        | _ => .panic) := by
  have := beforeLast_rel (grow := grow) hp text bare
  cases h1 : beforeLastM grow m.bytes p.json text bare <;> cases h2 : beforeLast (m.bytes.read p.json) (if bare then text else 44 :: text) <;>
    rw [h1, h2] at this <;> first | trivial | exact this.elim | skip
  rename_i x v
  obtain ⟨s, b'⟩ := x
  obtain ⟨⟨new, rfl⟩, hs, -, rfl⟩ := this
  have := PMRel.mk (b := m.bytes) (core := p.core) (e := none) new rfl (MHeap.ok.more (k := new) hh) hs
  rw [MHeap.see_more hh] at this
  exact this

/-- `Parser.AddKeyValue` -/
theorem addKeyValue_rel {newVal : BSlice} (hm : m.ok) (hp : p.json.ok m.bytes) (hv : newVal.ok m.bytes) (key : Bytes) (path : List Bytes) :
    PMRel m.bytes (p.AddKeyValue grow m key newVal path) ((p.see m.bytes).AddKeyValue m.see key (m.bytes.read newVal) path) := by
  have ha := C93_addKeyValue grow key (some newVal) path hp
  have hl := bread_length hp
  unfold ParserM.AddKeyValue ParserP.AddKeyValue
  split
  · exact PMRel.same hm hp
  have hg := get_rel hm hp path
  cases h1 : p.Get m path <;> cases h2 : (p.see m.bytes).Get m.see path <;> rw [h1, h2] at hg <;> first | trivial | exact hg.elim | skip
  rotate_left
  · obtain rfl := hg; exact PMRel.same hm hp
  rename_i json _
  obtain ⟨g1, rfl⟩ := hg
  simp only
  generalize (if key.length ≥ 2 then (idx (m.bytes.read newVal) 0).map fun c => c == 91 || c == 123 else .ok false : Out Bool) = cont
  rw [show (p.see m.bytes).core = p.core from rfl, show (p.see m.bytes).json = m.bytes.read p.json from rfl]
  split
  · rw [show m.see[p.core]? = m.nodes[p.core]?.map (NodeM.see m.bytes) from see_get _]
    cases m.nodes[p.core]? with
    | none => trivial
    | some r =>
      simp only [Option.map_some]
      rw [show (r.see m.bytes).down = r.down from rfl]
      split
      · exact PMRel.same hm hp
      cases enclosed (m.bytes.read json) 123 125 .objectExpected with
      | some e => exact PMRel.same hm hp
      | none =>
        cases cont with
        | err e => trivial
        | panic => trivial
        | ok c =>
          have hn := newNode_rel hm hv c key
          simp only
          cases h3 : newNodeM m c key newVal <;> cases h4 : newNodeP m.see c key (m.bytes.read newVal) <;> rw [h3, h4] at hn <;>
            first | trivial | exact hn.elim | skip
          rename_i x y
          obtain ⟨h', q⟩ := x
          obtain ⟨n1, rfl⟩ := hn
          simp only
          rw [← see_attach, hl]
          exact root_rel hp n1.attach _ _
  · cases m.see.walk p.core path with
    | panic => trivial
    | err e => exact PMRel.same hm hp
    | ok curr =>
      have hu : (m.see[curr]?.bind NodeRec.up).bind (m.see[·]?) = _ := upNode m.bytes m.nodes curr
      simp only [hu]
      cases (m.nodes[curr]?.bind NodeM.up).bind (m.nodes[·]?) with
      | none => trivial
      | some u =>
        simp only [Option.map_some]
        rw [show (u.see m.bytes).down = u.down from rfl]
        split
        · exact PMRel.same hm hp
        cases enclosed (m.bytes.read json) 123 125 .objectExpected with
        | some e => exact PMRel.same hm hp
        | none =>
          cases cont with
          | err e => trivial
          | panic => trivial
          | ok c =>
            have hn := newNode_rel hm hv c key
            simp only
            cases h3 : newNodeM m c key newVal <;> cases h4 : newNodeP m.see c key (m.bytes.read newVal) <;> rw [h3, h4] at hn <;>
              first | trivial | exact hn.elim | skip
            rename_i x y
            obtain ⟨h', q⟩ := x
            obtain ⟨n1, rfl⟩ := hn
            simp only
            rw [← see_attach]
            exact tail_rel ha hp n1.attach _ _

/-- `Parser.Add` -/
theorem add_rel {newVal : BSlice} (hm : m.ok) (hp : p.json.ok m.bytes) (hv : newVal.ok m.bytes) (path : List Bytes) :
    PMRel m.bytes (p.Add grow m newVal path) ((p.see m.bytes).Add m.see (m.bytes.read newVal) path) := by
  have ha := C93_add grow newVal path hp hv
  have hl := bread_length hp
  unfold ParserM.Add ParserP.Add
  rw [bread_length hv]
  split
  · exact PMRel.same hm hp
  have hg := get_rel hm hp path
  cases h1 : p.Get m path <;> cases h2 : (p.see m.bytes).Get m.see path <;> rw [h1, h2] at hg <;> first | trivial | exact hg.elim | skip
  rotate_left
  · obtain rfl := hg; exact PMRel.same hm hp
  rename_i json _
  obtain ⟨g1, rfl⟩ := hg
  simp only
  rw [show (p.see m.bytes).core = p.core from rfl, show (p.see m.bytes).json = m.bytes.read p.json from rfl]
  cases m.see.walk p.core path with
  | panic => trivial
  | err e => exact PMRel.same hm hp
  | ok curr =>
    simp only
    cases enclosed (m.bytes.read json) 91 93 .arrayExpected with
    | some e => exact PMRel.same hm hp
    | none =>
      simp only
      rw [show m.see[curr]? = m.nodes[curr]?.map (NodeM.see m.bytes) from see_get _]
      cases m.nodes[curr]? with
      | none => trivial
      | some r =>
        simp only [Option.map_some]
        rw [show (r.see m.bytes).down = r.down from rfl]
        have hn := newNode_rel hm hv (opensContainer (m.bytes.read newVal)) (itoa r.down.length)
        cases h3 : newNodeM m (opensContainer (m.bytes.read newVal)) (itoa r.down.length) newVal <;>
          cases h4 : newNodeP m.see (opensContainer (m.bytes.read newVal)) (itoa r.down.length) (m.bytes.read newVal) <;> rw [h3, h4] at hn <;>
          first | trivial | exact hn.elim | skip
        rename_i x y
        obtain ⟨h', q⟩ := x
        obtain ⟨n1, rfl⟩ := hn
        simp only
        rw [← see_attach]
        split
        · rw [hl]
          exact root_rel hp n1.attach _ _
        · exact tail_rel ha hp n1.attach _ _

/-- `node.insert` -/
theorem relabel_rel (index : Nat) : ∀ (ds : List Nat) (i : Nat) (h : MHeap), h.ok b →
    (relabelM index i ds h).ok b ∧ relabelP index i ds (h.see b) = (relabelM index i ds h).see b
  | [], _, h, hh => ⟨hh, rfl⟩
  | d :: ds, i, h, hh => by
    unfold relabelM relabelP
    split
    · have := relabel_rel index ds (i + 1) (h.setLabel d (.str (itoa (i + 1)))) (hh.setLabel trivial)
      rw [see_setLabel] at this
      exact this
    · exact relabel_rel index ds (i + 1) h hh

theorem insert_node (hh : h.ok b) (n up : Nat) (index : Int) :
    match h.insert n up index, (h.see b).insert n up index with
    | .ok x, .ok y => x.ok b ∧ y = x.see b
    | .err e, .err e' => e = e'
    | .panic, .panic => True
    | _, _ => False := by
  unfold MHeap.insert NHeap.insert
  rw [see_get]
  cases h[up]? with
  | none => trivial
  | some u =>
    simp only [Option.map_some]
    rw [show (u.see b).down = u.down from rfl]
    by_cases c1 : (u.down.length != 0) = true
    · rw [if_pos c1, if_pos c1]
      by_cases c2 : (u.down.length : Int) - 1 < index
      · rw [if_pos c2, if_pos c2]
      rw [if_neg c2, if_neg c2]
      by_cases c3 : index < 0
      · rw [if_pos c3, if_pos c3]; trivial
      · rw [if_neg c3, if_neg c3]
        obtain ⟨r1, r2⟩ := relabel_rel (b := b) index.toNat u.down 0 h hh
        refine ⟨(r1.setLabel (l := .str (itoa index)) trivial).setUp, ?_⟩
        rw [r2, see_setUp, see_setLabel]
        rfl
    · rw [if_neg c1, if_neg c1]

theorem bareNode_rel {newVal : BSlice} (hm : m.ok) (hv : newVal.ok m.bytes) (c : Bool) :
    OptRel (fun x y => x.1.ok m.bytes ∧ y = (x.1.see m.bytes, x.2)) (bareNodeM m c newVal) (bareNodeP m.see c (m.bytes.read newVal)) := by
  unfold bareNodeM bareNodeP
  rw [Mem.see, create_see]
  simp only
  split
  · have hc := pCoreM_rel hv (create_ok hm) (createNodeM m.nodes none).2
    cases h1 : pCoreM m.bytes newVal (createNodeM m.nodes none).2 (createNodeM m.nodes none).1 <;>
      cases h2 : pCoreP (m.bytes.read newVal) (createNodeM m.nodes none).2 ((createNodeM m.nodes none).1.see m.bytes) <;>
      rw [h1, h2] at hc <;> first | trivial | exact hc.elim | skip
    obtain ⟨a1, rfl⟩ := hc
    exact ⟨a1, rfl⟩
  · exact ⟨create_ok hm, rfl⟩

/-- The second `node.insert` of parse_add.go:254 and 273, behind a mutator of the text. -/
theorem again_rel {hn : MHeap} {r : MutS × BHeap} {v : Mut} (ha : Apart m.bytes p.json r v) (hp : p.json.ok m.bytes) (hh : hn.ok m.bytes)
    (q curr : Nat) (index : Int) (f : MHeap → MHeap) (g : NHeap → NHeap) (hf : ∀ b h, (f h).see b = g (h.see b)) (hfk : ∀ b h, h.ok b → (f h).ok b) :
    PMRel m.bytes
      (match (generalizing := false) r with
        | (.panic, _) => .panic
        | (.done json' (some e), bytes) => .done { p with json := json' } ⟨bytes, hn⟩ (some e)
        | (.done json' none, bytes) =>
          match hn.insert q curr index with
          | .panic => .panic
          | .err e => .done { p with json := json' } ⟨bytes, hn⟩ (some e)
          | .ok h => .done { p with json := json' } ⟨bytes, f h⟩ none)
      (match (generalizing := false) v with
        | .panic => .panic
        | .done json' (some e) => .done ⟨p.core, json'⟩ (hn.see m.bytes) (some e)
        | .done json' none =>
          match (hn.see m.bytes).insert q curr index with
          | .panic => .panic
          | .err e => .done ⟨p.core, json'⟩ (hn.see m.bytes) (some e)
          | .ok h => .done ⟨p.core, json'⟩ (g h) none) := by
  rcases ha.use hp with ⟨b', e1, e2⟩ | ⟨s, e, new, e1, e2, e3⟩
  · rw [e1, e2]; trivial
  · rw [e1, e2]
    have same : ∀ e, PMRel m.bytes (.done { p with json := s } ⟨m.bytes ++ new, hn⟩ e)
        (.done ⟨p.core, BHeap.read (m.bytes ++ new) s⟩ (hn.see m.bytes) e) := by
      intro e
      have := PMRel.mk (b := m.bytes) (core := p.core) (e := e) new rfl (MHeap.ok.more (k := new) hh) e3
      rw [MHeap.see_more hh] at this
      exact this
    cases e with
    | some e => exact same _
    | none =>
      have hi := insert_node hh q curr index
      simp only
      cases h1 : hn.insert q curr index <;> cases h2 : (hn.see m.bytes).insert q curr index <;> rw [h1, h2] at hi <;>
        first | trivial | exact hi.elim | skip
      · rename_i x y
        obtain ⟨i1, rfl⟩ := hi
        have := PMRel.mk (b := m.bytes) (core := p.core) (e := none) new rfl (MHeap.ok.more (k := new) (hfk _ _ i1)) e3
        rw [MHeap.see_more (hfk _ _ i1), hf] at this
        exact this
      · obtain rfl := hi
        exact same _

/-- `Parser.Insert` -/
theorem insert_rel {newVal : BSlice} (hm : m.ok) (hp : p.json.ok m.bytes) (hv : newVal.ok m.bytes) (index : Int) (path : List Bytes) :
    PMRel m.bytes (p.Insert grow m index newVal path) ((p.see m.bytes).Insert m.see index (m.bytes.read newVal) path) := by
  have ha := C93_insert grow index newVal path hp hv
  unfold ParserM.Insert ParserP.Insert
  rw [bread_length hv]
  split
  · exact PMRel.same hm hp
  have hg := get_rel hm hp path
  cases h1 : p.Get m path <;> cases h2 : (p.see m.bytes).Get m.see path <;> rw [h1, h2] at hg <;> first | trivial | exact hg.elim | skip
  rotate_left
  · obtain rfl := hg; exact PMRel.same hm hp
  rename_i json _
  obtain ⟨g1, rfl⟩ := hg
  simp only
  rw [show (p.see m.bytes).core = p.core from rfl, show (p.see m.bytes).json = m.bytes.read p.json from rfl]
  cases m.see.walk p.core path with
  | panic => trivial
  | err e => exact PMRel.same hm hp
  | ok curr =>
    simp only
    cases enclosed (m.bytes.read json) 91 93 .arrayExpected with
    | some e => exact PMRel.same hm hp
    | none =>
      simp only
      have hn := bareNode_rel hm hv (opensContainer (m.bytes.read newVal))
      cases h3 : bareNodeM m (opensContainer (m.bytes.read newVal)) newVal <;>
        cases h4 : bareNodeP m.see (opensContainer (m.bytes.read newVal)) (m.bytes.read newVal) <;> rw [h3, h4] at hn <;>
        first | trivial | exact hn.elim | skip
      rename_i x y
      obtain ⟨h', q⟩ := x
      obtain ⟨n1, rfl⟩ := hn
      simp only
      have hi := insert_node n1 q curr index
      cases h5 : h'.insert q curr index <;> cases h6 : (h'.see m.bytes).insert q curr index <;> rw [h5, h6] at hi <;>
        first | trivial | exact hi.elim | skip
      · obtain ⟨i1, rfl⟩ := hi
        simp only
        split
        · split
          · exact again_rel ha hp i1 q curr index (fun h => h.attach curr q) (fun h => h.attach curr q) (fun _ _ => see_attach) (fun _ _ hk => hk.attach)
          · rw [← see_setValue, ← see_addDown]
            exact again_rel ha hp (i1.setValue hv).addDown q curr index (fun h => h.setUp q (some curr)) (fun h => h.setUp q (some curr))
              (fun _ _ => see_setUp) (fun _ _ hk => hk.setUp)
        · rw [← see_setValue, ← see_attach]
          exact tail_rel ha hp (i1.setValue hv).attach _ _
      · obtain rfl := hi
        exact ⟨rfl, ⟨[], by simp⟩, n1, hp, rfl, rfl⟩

end Jin

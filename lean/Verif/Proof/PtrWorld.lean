import Verif.Proof.PtrRead
/-!
# Proof.PtrWorld — several parsers in one memory of nodes
-/

namespace Jin

/-- A call of a program that uses parsers; `k` is the number of the parser, in the order of the calls of `Parse`. -/
inductive PtrCall where
  | parse (json : Bytes)
  | set (k : Nat) (newVal : Bytes) (path : List Bytes)
  | setKey (k : Nat) (newKey : Bytes) (path : List Bytes)
  | delete (k : Nat) (path : List Bytes)
  | addKeyValue (k : Nat) (key newVal : Bytes) (path : List Bytes)
  | add (k : Nat) (newVal : Bytes) (path : List Bytes)
  | insert (k : Nat) (index : Int) (newVal : Bytes) (path : List Bytes)
  | get (k : Nat) (path : List Bytes)
  | getNew (k : Nat) (path : List Bytes)
  | tree (k : Nat) (pad : Bytes → Bytes) (withValues : Bool)

/-- What the program sees of a call: an error, the text a parser holds afterwards, bytes, or a panic. -/
inductive PAns where
  | parsed (err : Option Err)
  | did (json : Bytes) (err : Option Err)
  | read (res : Out Bytes)
  | panic
  | noParser

/-- The parsers of a program on pointers. -/
structure WorldP where
  heap : NHeap
  parsers : List ParserP

def WorldP.mut (w : WorldP) (k : Nat) (f : NHeap → ParserP → PResP) : WorldP × PAns :=
  match w.parsers[k]? with
  | none => (w, .noParser)
  | some p =>
    match f w.heap p with
    | .panic => (w, .panic)
    | .done p' h e => (⟨h, w.parsers.set k p'⟩, .did p'.json e)

def WorldP.look (w : WorldP) (k : Nat) (f : NHeap → ParserP → Out Bytes) : WorldP × PAns :=
  match w.parsers[k]? with
  | none => (w, .noParser)
  | some p => (w, .read (f w.heap p))

/-- One call on pointers. -/
def WorldP.step (w : WorldP) : PtrCall → WorldP × PAns
  | .parse json =>
    match ParseP json w.heap with
    | .panic => (w, .panic)
    | .err e => (w, .parsed (some e))
    | .ok (p, h) => (⟨h, w.parsers ++ [p]⟩, .parsed none)
  | .set k newVal path => w.mut k fun h p => p.Set h newVal path
  | .setKey k newKey path => w.mut k fun h p => p.SetKey h newKey path
  | .delete k path => w.mut k fun h p => p.Delete h path
  | .addKeyValue k key newVal path => w.mut k fun h p => p.AddKeyValue h key newVal path
  | .add k newVal path => w.mut k fun h p => p.Add h newVal path
  | .insert k index newVal path => w.mut k fun h p => p.Insert h index newVal path
  | .get k path => w.look k fun h p => p.Get h path
  | .getNew k path => w.look k fun h p => p.GetNew h (2 * h.length) path
  | .tree k pad b => w.look k fun h p => match p.tree h h.length pad b with
    | some s => .ok s
    | none => .panic

/-- The same call where each parser is a value of its own. -/
def valMut (w : List Parser) (k : Nat) (f : Parser → PRes) : List Parser × PAns :=
  match w[k]? with
  | none => (w, .noParser)
  | some p =>
    match f p with
    | .panic => (w, .panic)
    | .done p' e => (w.set k p', .did p'.json e)

def valLook (w : List Parser) (k : Nat) (f : Parser → Out Bytes) : List Parser × PAns :=
  match w[k]? with
  | none => (w, .noParser)
  | some p => (w, .read (f p))

/-- One call where each parser is a value. -/
def valStep (w : List Parser) : PtrCall → List Parser × PAns
  | .parse json =>
    match Parse json with
    | .panic => (w, .panic)
    | .err e => (w, .parsed (some e))
    | .ok p => (w ++ [p], .parsed none)
  | .set k newVal path => valMut w k fun p => p.Set newVal path
  | .setKey k newKey path => valMut w k fun p => p.SetKey newKey path
  | .delete k path => valMut w k fun p => p.Delete path
  | .addKeyValue k key newVal path => valMut w k fun p => p.AddKeyValue key newVal path
  | .add k newVal path => valMut w k fun p => p.Add newVal path
  | .insert k index newVal path => valMut w k fun p => p.Insert index newVal path
  | .get k path => valLook w k fun p => p.Get path
  | .getNew k path => valLook w k fun p => p.GetNew path
  | .tree k pad b => valLook w k fun p => .ok (p.core.createTree pad 0 b)

def PAns.isPanic : PAns → Bool
  | .panic => true
  | _ => false

/-- A program on pointers: its answers, up to a panic. -/
def WorldP.run (w : WorldP) : List PtrCall → List PAns
  | [] => []
  | c :: cs => let (w, a) := w.step c; a :: if a.isPanic then [] else w.run cs

/-- A program where each parser is a value. -/
def valRun (w : List Parser) : List PtrCall → List PAns
  | [] => []
  | c :: cs => let (w, a) := valStep w c; a :: if a.isPanic then [] else valRun w cs

/-! ### The two agree -/

structure Slot where
  p : ParserP
  P : Parser
  up : Option Nat
  t : PTree

/-- The parsers on pointers are those that are values, and share no nodes. -/
structure WRel (w : WorldP) (vs : List Parser) (L : List Slot) : Prop where
  left : w.parsers = L.map Slot.p
  right : vs = L.map Slot.P
  rep : ∀ (k : Nat) (s : Slot), L[k]? = some s → Rep w.heap s.p s.P s.up s.t
  apart : ∀ (i j : Nat) (a b : Slot), L[i]? = some a → L[j]? = some b → i ≠ j → ∀ x ∈ a.t.ptrs, x ∉ b.t.ptrs

variable {w w' : WorldP} {vs : List Parser} {L : List Slot}

theorem WRel.slot (hr : WRel w vs L) (k : Nat) :
    (L[k]? = none ∧ w.parsers[k]? = none ∧ vs[k]? = none) ∨ (∃ s, L[k]? = some s ∧ w.parsers[k]? = some s.p ∧ vs[k]? = some s.P) := by
  rw [hr.left, hr.right, List.getElem?_map, List.getElem?_map]
  cases L[k]? with
  | none => exact .inl ⟨rfl, rfl, rfl⟩
  | some s => exact .inr ⟨s, rfl, rfl, rfl⟩

theorem Rep.frame {h h' : NHeap} {p : ParserP} {P : Parser} {up : Option Nat} {t : PTree} (hr : Rep h p P up t) (hf : ∀ x ∈ t.ptrs, h'[x]? = h[x]?) : Rep h' p P up t :=
  ⟨hr.json, hr.core, ⟨hr.holds.here.frame hf, hr.holds.nodup⟩, hr.erase⟩

/-- A call on one parser leaves the nodes of the others alone. -/
theorem WRel.set (hr : WRel w vs L) {k : Nat} {s : Slot} (hs : L[k]? = some s) {h' : NHeap} {p' : ParserP} {P' : Parser} {t' : PTree}
    (hp : Rep h' p' P' s.up t') (hsafe : Safe w.heap s.t h' t') :
    WRel ⟨h', w.parsers.set k p'⟩ (vs.set k P') (L.set k ⟨p', P', s.up, t'⟩) := by
  have hk : k < L.length := (List.getElem?_eq_some_iff.1 hs).1
  have hget : ∀ i a, (L.set k ⟨p', P', s.up, t'⟩)[i]? = some a → (i = k ∧ a = ⟨p', P', s.up, t'⟩) ∨ (i ≠ k ∧ L[i]? = some a) := by
    intro i a ha
    by_cases e : i = k
    · subst e
      rw [List.getElem?_set_self hk] at ha
      cases ha
      exact .inl ⟨rfl, rfl⟩
    · rw [List.getElem?_set_ne (fun e' => e e'.symm)] at ha
      exact .inr ⟨e, ha⟩
  refine ⟨by rw [List.map_set, hr.left], by rw [List.map_set, hr.right], fun i a ha => ?_, fun i j a b ha hb hij => ?_⟩
  · rcases hget i a ha with ⟨-, rfl⟩ | ⟨hi, ha⟩
    · exact hp
    · have := hr.rep i a ha
      exact this.frame fun x hx => hsafe.frame x (this.holds.here.lt x hx) (hr.apart i k a s ha hs hi x hx)
  · rcases hget i a ha with ⟨ei, rfl⟩ | ⟨hi, ha⟩ <;> rcases hget j b hb with ⟨ej, rfl⟩ | ⟨hj, hb⟩
    · omega
    · intro x hx hxb
      rcases hsafe.fresh x hx with h | h
      · exact hr.apart k j s b hs hb (by omega) x h hxb
      · have := (hr.rep j b hb).holds.here.lt x hxb; omega
    · intro x hxa hx
      rcases hsafe.fresh x hx with h | h
      · exact hr.apart i k a s ha hs (by omega) x hxa h
      · have := (hr.rep i a ha).holds.here.lt x hxa; omega
    · exact hr.apart i j a b ha hb hij

theorem WRel.mut (hr : WRel w vs L) (k : Nat) {f : NHeap → ParserP → PResP} {g : Parser → PRes}
    (hfg : ∀ h p P up t, Rep h p P up t → PRel h up t (f h p) (g P)) :
    ∃ L', WRel (w.mut k f).1 (valMut vs k g).1 L' ∧ (w.mut k f).2 = (valMut vs k g).2 := by
  unfold WorldP.mut valMut
  rcases hr.slot k with ⟨-, h2, h3⟩ | ⟨s, h1, h2, h3⟩
  · rw [h2, h3]; exact ⟨L, hr, rfl⟩
  · rw [h2, h3]
    simp only
    have := hfg w.heap s.p s.P s.up s.t (hr.rep k s h1)
    revert this
    cases f w.heap s.p with
    | panic =>
      cases g s.P with
      | panic => exact fun _ => ⟨L, hr, rfl⟩
      | done P' e => exact fun h => h.elim
    | done p' h' e =>
      cases g s.P with
      | panic => exact fun h => h.elim
      | done P' e' =>
        rintro ⟨rfl, t', a, b⟩
        exact ⟨_, hr.set h1 a b, by simp only [a.json]⟩

theorem WRel.look (hr : WRel w vs L) (k : Nat) {f : NHeap → ParserP → Out Bytes} {g : Parser → Out Bytes}
    (hfg : ∀ h p P up t, Rep h p P up t → f h p = g P) : ∃ L', WRel (w.look k f).1 (valLook vs k g).1 L' ∧ (w.look k f).2 = (valLook vs k g).2 := by
  unfold WorldP.look valLook
  rcases hr.slot k with ⟨-, h2, h3⟩ | ⟨s, h1, h2, h3⟩
  · rw [h2, h3]; exact ⟨L, hr, rfl⟩
  · rw [h2, h3]
    exact ⟨L, hr, by simp only [hfg w.heap s.p s.P s.up s.t (hr.rep k s h1)]⟩

theorem WRel.step (hr : WRel w vs L) (c : PtrCall) : ∃ L', WRel (w.step c).1 (valStep vs c).1 L' ∧ (w.step c).2 = (valStep vs c).2 := by
  cases c with
  | parse json =>
    have := parse_sim json w.heap
    unfold WorldP.step valStep
    revert this
    simp only
    cases ParseP json w.heap with
    | panic =>
      cases Parse json with
      | panic => exact fun _ => ⟨L, hr, rfl⟩
      | err e => exact fun h => h.elim
      | ok P => exact fun h => h.elim
    | err e =>
      cases Parse json with
      | panic => exact fun h => h.elim
      | err e' => rintro rfl; exact ⟨L, hr, rfl⟩
      | ok P => exact fun h => h.elim
    | ok x =>
      obtain ⟨p, h'⟩ := x
      cases Parse json with
      | panic => exact fun h => h.elim
      | err e' => exact fun h => h.elim
      | ok P =>
        rintro ⟨⟨up, t, h1, h2⟩, h3, h4⟩
        have hget : ∀ (i : Nat) (a : Slot), (L ++ [⟨p, P, up, t⟩])[i]? = some a → (i = L.length ∧ a = ⟨p, P, up, t⟩) ∨ L[i]? = some a := by
          intro i a ha
          rw [List.getElem?_append] at ha
          split at ha
          · exact .inr ha
          · next hi =>
            obtain ⟨hl, rfl⟩ := List.getElem?_eq_some_iff.1 ha
            simp at hl
            exact .inl ⟨by omega, by simp⟩
        refine ⟨L ++ [⟨p, P, up, t⟩], ⟨by simp [hr.left], by simp [hr.right], fun i a ha => ?_, fun i j a b ha hb hij => ?_⟩, rfl⟩
        · rcases hget i a ha with ⟨-, rfl⟩ | ha
          · exact h1
          · have := hr.rep i a ha
            exact this.frame fun x hx => h3 x (this.holds.here.lt x hx)
        · rcases hget i a ha with ⟨ei, rfl⟩ | ha <;> rcases hget j b hb with ⟨ej, rfl⟩ | hb
          · omega
          · intro x hx hxb
            have := h2 x hx
            have := (hr.rep j b hb).holds.here.lt x hxb
            omega
          · intro x hxa hx
            have := h2 x hx
            have := (hr.rep i a ha).holds.here.lt x hxa
            omega
          · exact hr.apart i j a b ha hb hij
  | set k newVal path => exact hr.mut k fun h p P up t h => set_sim h newVal path
  | setKey k newKey path => exact hr.mut k fun h p P up t h => setKey_sim h newKey path
  | delete k path => exact hr.mut k fun h p P up t h => delete_sim h path
  | addKeyValue k key newVal path => exact hr.mut k fun h p P up t h => addKeyValue_sim h key newVal path
  | add k newVal path => exact hr.mut k fun h p P up t h => add_sim h newVal path
  | insert k index newVal path => exact hr.mut k fun h p P up t h => insert_sim h index newVal path
  | get k path => exact hr.look k fun h p P up t h => get_sim h path
  | getNew k path => exact hr.look k fun h p P up t h => getNew_sim h (Nat.le_refl _) path
  | tree k pad b => exact hr.look k fun h p P up t h => by rw [tree_sim h (Nat.le_refl _) pad b]

theorem WRel.run (hr : WRel w vs L) (cs : List PtrCall) : w.run cs = valRun vs cs := by
  induction cs generalizing w vs L with
  | nil => rfl
  | cons c cs ih =>
    obtain ⟨L', h1, h2⟩ := hr.step c
    rw [WorldP.run, valRun]
    simp only [h2, ih h1]

theorem WRel.empty : WRel ⟨[], []⟩ [] [] := ⟨rfl, rfl, fun _ _ h => (by cases h), fun _ _ _ _ h => (by cases h)⟩

/-- The parsers after some calls. -/
def WorldP.after (w : WorldP) : List PtrCall → WorldP
  | [] => w
  | c :: cs => (w.step c).1.after cs

def valAfter (vs : List Parser) : List PtrCall → List Parser
  | [] => vs
  | c :: cs => valAfter (valStep vs c).1 cs

theorem WRel.after (hr : WRel w vs L) (cs : List PtrCall) : ∃ L', WRel (w.after cs) (valAfter vs cs) L' := by
  induction cs generalizing w vs L with
  | nil => exact ⟨L, hr⟩
  | cons c cs ih =>
    obtain ⟨L', h1, -⟩ := hr.step c
    exact ih h1

theorem Here.reach {h : NHeap} {up : Option Nat} {t : PTree} (ht : Here h up t) {n : Nat} (hn : NHeap.Reach h t.ptr n) : ∃ s, Sub s t ∧ s.ptr = n := by
  generalize hp : t.ptr = a at hn
  induction hn generalizing t up with
  | refl => exact ⟨t, .refl, hp⟩
  | @kid a b d r hr hd _ ih =>
    rw [← hp, ht.cell] at hr
    cases hr
    obtain ⟨e, he, rfl⟩ := List.mem_map.1 hd
    obtain ⟨s, hs, hsp⟩ := ih (ht.kids e he) rfl
    exact ⟨s, .kid he hs, hsp⟩

end Jin

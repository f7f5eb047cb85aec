import Verif.Go.ParserArray
import Verif.Go.Tree
/-!
# Go.ParserAll — programs with every method of `Parser`, run on the text
-/

namespace Jin.Go

/-- A typed getter of `Parser`. -/
inductive TGet where
  | string | int | float | bool | strings | ints | floats | bools

/-- The name of the method. -/
def TGet.call : TGet → Id
  | .string => go% Parser.GetString | .int => go% Parser.GetInt | .float => go% Parser.GetFloat | .bool => go% Parser.GetBool
  | .strings => go% Parser.GetStringArray | .ints => go% Parser.GetIntArray | .floats => go% Parser.GetFloatArray | .bools => go% Parser.GetBoolArray

/-- The value that comes with an error. -/
def TGet.dflt : TGet → Val
  | .string => .bytes [] | .int => .int (-1) | .float => .int (-1) | .bool => .bool false
  | _ => .nil

/-- What the getter gives on a parser that is a value (`Model/Parser.lean`, `Model/ParserMore.lean`). -/
def TGet.val (fl : FloatLib UInt64) (g : TGet) (P : Parser) (path : List Bytes) : Out Val :=
  match g with
  | .string => (P.GetString path).map .bytes
  | .int => (P.GetInt path).map .int
  | .float => (P.GetFloat fl path).map .float
  | .bool => (P.GetBool path).map .bool
  | .strings => (P.GetStringArray path).map .strs
  | .ints => (P.GetIntArray path).map .ints
  | .floats => (P.GetFloatArray fl path).map .floats
  | .bools => (P.GetBoolArray path).map .bools

theorem TGet.text (fl : FloatLib UInt64) (g : TGet) {h : NHeap} (hh : Closed h) {p : ParserP} (hp : p.core < h.length) {P : Parser} {path : List Bytes}
    (hg : p.Get h path = P.Get path) :
    Call fl g.call [.heap h, .ptr p.core, .bytes p.json] path (readVals h p g.dflt (g.val fl P path)) := by
  have H : Call fl (go% Parser.Get) [.heap h, .ptr p.core, .bytes p.json] path (readVals h p .nil ((P.Get path).map .bytes)) := by
    rw [← hg, ← readVals_bytes]
    exact text_Parser_Get fl hh p hp path
  have H' := get_string fl p H
  cases g with
  | string => exact H'
  | int => exact get_int fl p H'
  | float =>
    have e : (P.GetFloat fl path) = (P.Get path).bind (floatOf fl) := by
      show (P.Get path).bind _ = _
      congr 1
      funext v
      unfold floatOf
      cases fl.parse v <;> rfl
    have := get_float fl p H'
    rw [← e] at this
    exact this
  | bool => exact get_bool fl p H'
  | strings => exact get_strings fl p H'
  | ints => exact get_ints fl p H'
  | floats => exact get_floats fl p H'
  | bools => exact get_bools fl p H'

theorem text_Parser_JSON (fl : FloatLib UInt64) (h : NHeap) (p : ParserP) :
    Call1 fl (go% Parser.JSON) [.heap h, .ptr p.core, .bytes p.json] (.ok [.heap h, .ptr p.core, .bytes p.json, .bytes p.json]) :=
  Call1.of 0 1 fun fuel d _ => by
    rw [fn_run (g := Src.Parser.JSON) rfl]
    run_go [Func.run, Src.Parser.JSON, bindParams]

/-- A call in a program that uses parsers. -/
inductive TCall where
  | base (c : PtrCall)
  | typed (k : Nat) (m : TMut) (path : List Bytes)
  | read (k : Nat) (g : TGet) (path : List Bytes)
  | json (k : Nat)
  | tree (k : Nat) (full : Bool)

/-- What the program sees. -/
inductive TAns where
  | base (a : PAns)
  | value (v : Val)
  | error (v : Val) (e : Err)

def TAns.isPanic : TAns → Bool
  | .base a => a.isPanic
  | _ => false

/-- What a program does with the values that a typed getter returns. -/
def afterRead (w : WorldP) (k : Nat) : R (List Val) → Option (WorldP × TAns)
  | .ok [.heap h, .ptr c, .bytes j, v, .nil] => some (⟨h, w.parsers.set k ⟨c, j⟩⟩, .value v)
  | .ok [.heap h, .ptr c, .bytes j, v, .err e] => some (⟨h, w.parsers.set k ⟨c, j⟩⟩, .error v e)
  | .panic => some (w, .base .panic)
  | _ => none

/-- What a program does with the value that `JSON`, `Tree` or `TreeFull` returns. -/
def afterJSON (w : WorldP) (k : Nat) : R (List Val) → Option (WorldP × TAns)
  | .ok [.heap h, .ptr c, .bytes j, v] => some (⟨h, w.parsers.set k ⟨c, j⟩⟩, .value v)
  | .panic => some (w, .base .panic)
  | _ => none

/-- One call of the text. -/
def TStep (fl : FloatLib UInt64) (w : WorldP) : TCall → WorldP × TAns → Prop
  | .base c, x => ∃ a, TextStep fl w c (x.1, a) ∧ x.2 = .base a
  | .typed k m path, x => ∃ a, TextOn fl w k m.call.1 m.call.2 path (afterMut w k) (x.1, a) ∧ x.2 = .base a
  | .read k g path, x =>
    match w.parsers[k]? with
    | none => x = (w, .base .noParser)
    | some p => ∃ r, Call fl g.call [.heap w.heap, .ptr p.core, .bytes p.json] path r ∧ afterRead w k r = some x
  | .json k, x =>
    match w.parsers[k]? with
    | none => x = (w, .base .noParser)
    | some p => ∃ r, Call1 fl (go% Parser.JSON) [.heap w.heap, .ptr p.core, .bytes p.json] r ∧ afterJSON w k r = some x
  | .tree k full, x =>
    match w.parsers[k]? with
    | none => x = (w, .base .noParser)
    | some p => ∃ r, Call1 fl (if full then go% Parser.TreeFull else go% Parser.Tree) [.heap w.heap, .ptr p.core, .bytes p.json] r ∧ afterJSON w k r = some x

/-- A program on the text: its calls, up to the first that panics, the answers, and the world it leaves. -/
inductive TRun (fl : FloatLib UInt64) : WorldP → List TCall → List TAns → WorldP → Prop where
  | nil {w : WorldP} : TRun fl w [] [] w
  | stop {w w' : WorldP} {c : TCall} {cs : List TCall} {a : TAns} : TStep fl w c (w', a) → a.isPanic = true → TRun fl w (c :: cs) [a] w'
  | step {w w' w'' : WorldP} {c : TCall} {cs : List TCall} {a : TAns} {as : List TAns} : TStep fl w c (w', a) → a.isPanic = false →
      TRun fl w' cs as w'' → TRun fl w (c :: cs) (a :: as) w''

/-- One call where each parser is a value of its own. -/
def tVal (fl : FloatLib UInt64) (vs : List Parser) : TCall → List Parser × TAns
  | .base c => ((valStep vs c).1, .base (valStep vs c).2)
  | .typed k m path => ((valMut vs k fun P => m.val fl P path).1, .base (valMut vs k fun P => m.val fl P path).2)
  | .read k g path =>
    match vs[k]? with
    | none => (vs, .base .noParser)
    | some P =>
      match g.val fl P path with
      | .ok v => (vs, .value v)
      | .err e => (vs, .error g.dflt e)
      | .panic => (vs, .base .panic)
  | .json k =>
    match vs[k]? with
    | none => (vs, .base .noParser)
    | some P => (vs, .value (.bytes P.json))
  | .tree k full =>
    match vs[k]? with
    | none => (vs, .base .noParser)
    | some P => (vs, .value (.bytes (if full then P.TreeFull pad6 else P.Tree)))

/-- A program where each parser is a value of its own: its answers, up to the first panic, and the parsers it leaves. -/
def tVals (fl : FloatLib UInt64) (vs : List Parser) : List TCall → List TAns × List Parser
  | [] => ([], vs)
  | c :: cs =>
    if (tVal fl vs c).2.isPanic then ([(tVal fl vs c).2], (tVal fl vs c).1)
    else ((tVal fl vs c).2 :: (tVals fl (tVal fl vs c).1 cs).1, (tVals fl (tVal fl vs c).1 cs).2)

theorem TStep.unique {fl : FloatLib UInt64} {w : WorldP} {c : TCall} {x y : WorldP × TAns} (hx : TStep fl w c x) (hy : TStep fl w c y) : x = y := by
  obtain ⟨x1, x2⟩ := x
  obtain ⟨y1, y2⟩ := y
  cases c with
  | base c =>
    obtain ⟨a, h1, rfl⟩ := hx
    obtain ⟨b, h2, rfl⟩ := hy
    cases h1.unique h2
    rfl
  | typed k m path =>
    obtain ⟨a, h1, rfl⟩ := hx
    obtain ⟨b, h2, rfl⟩ := hy
    cases h1.unique h2
    rfl
  | read k g path =>
    simp only [TStep] at hx hy
    cases hk : w.parsers[k]? <;> rw [hk] at hx hy
    · exact Eq.trans hx (Eq.symm hy)
    · obtain ⟨r, h1, h2⟩ := hx
      obtain ⟨s, h3, h4⟩ := hy
      rw [h1.unique h3, h4] at h2
      exact (Option.some.inj h2).symm
  | json k =>
    simp only [TStep] at hx hy
    cases hk : w.parsers[k]? <;> rw [hk] at hx hy
    · exact Eq.trans hx (Eq.symm hy)
    · obtain ⟨r, h1, h2⟩ := hx
      obtain ⟨s, h3, h4⟩ := hy
      rw [h1.unique h3, h4] at h2
      exact (Option.some.inj h2).symm
  | tree k full =>
    simp only [TStep] at hx hy
    cases hk : w.parsers[k]? <;> rw [hk] at hx hy
    · exact Eq.trans hx (Eq.symm hy)
    · obtain ⟨r, h1, h2⟩ := hx
      obtain ⟨s, h3, h4⟩ := hy
      rw [h1.unique h3, h4] at h2
      exact (Option.some.inj h2).symm

theorem TRun.unique {fl : FloatLib UInt64} {w w1 w2 : WorldP} {cs : List TCall} {as bs : List TAns} (ha : TRun fl w cs as w1) (hb : TRun fl w cs bs w2) :
    as = bs ∧ w1 = w2 := by
  induction ha generalizing bs w2 with
  | nil => cases hb; exact ⟨rfl, rfl⟩
  | stop h1 h2 =>
    cases hb with
    | stop k1 k2 => cases h1.unique k1; exact ⟨rfl, rfl⟩
    | step k1 k2 k3 => cases h1.unique k1; rw [h2] at k2; cases k2
  | step h1 h2 h3 ih =>
    cases hb with
    | stop k1 k2 => cases h1.unique k1; rw [h2] at k2; cases k2
    | step k1 k2 k3 => cases h1.unique k1; obtain ⟨rfl, rfl⟩ := ih k3; exact ⟨rfl, rfl⟩

section
variable {fl : FloatLib UInt64} {w : WorldP} {vs : List Parser} {L : List Slot}

theorem t_step (hr : WRel w vs L) (hh : Closed w.heap) (c : TCall) (hc : ∀ k pad b, c ≠ .base (.tree k pad b)) :
    ∃ w' L', TStep fl w c (w', (tVal fl vs c).2) ∧ WRel w' (tVal fl vs c).1 L' ∧ Closed w'.heap := by
  cases c with
  | base c =>
    obtain ⟨w', L', h1, h2, h3⟩ := text_step (fl := fl) hr hh c (fun k pad b h => hc k pad b (by rw [h]))
    exact ⟨w', L', ⟨_, h1, rfl⟩, h2, h3⟩
  | typed k m path =>
    obtain ⟨w', L', h1, h2, h3⟩ := text_mut (fl := fl) hr hh k (F := fun h p => m.ptr fl h p path) (G := fun P => m.val fl P path)
      (fun p hp => TMut.text fl hh p hp m path) (fun p hp => m.sound fl hh hp path) fun h p P up t h => m.sim fl h path
    exact ⟨w', L', ⟨_, h1, rfl⟩, h2, h3⟩
  | read k g path =>
    simp only [TStep, tVal]
    rcases hr.slot k with ⟨-, k2, k3⟩ | ⟨s, k1, k2, k3⟩
    · rw [k2, k3]
      exact ⟨w, L, rfl, hr, hh⟩
    · rw [k2, k3]
      have hs := hr.rep k s k1
      have hp : s.p.core < w.heap.length := by rw [hs.core]; exact hs.holds.here.lt _ (ptr_mem s.t)
      have ht := TGet.text fl g hh hp (P := s.P) (path := path) (get_sim hs path)
      have e : w.parsers.set k ⟨s.p.core, s.p.json⟩ = w.parsers := set_same k2
      simp only
      cases hv : g.val fl s.P path <;> rw [hv] at ht <;>
        exact ⟨w, L, ⟨_, ht, by simp only [readVals, afterRead, e]⟩, hr, hh⟩
  | json k =>
    simp only [TStep, tVal]
    rcases hr.slot k with ⟨-, k2, k3⟩ | ⟨s, k1, k2, k3⟩
    · rw [k2, k3]
      exact ⟨w, L, rfl, hr, hh⟩
    · rw [k2, k3]
      have hs := hr.rep k s k1
      have e : w.parsers.set k ⟨s.p.core, s.p.json⟩ = w.parsers := set_same k2
      exact ⟨w, L, ⟨_, text_Parser_JSON fl w.heap s.p, by simp only [afterJSON, e]; rw [hs.json]⟩, hr, hh⟩
  | tree k full =>
    simp only [TStep, tVal]
    rcases hr.slot k with ⟨-, k2, k3⟩ | ⟨s, k1, k2, k3⟩
    · rw [k2, k3]
      exact ⟨w, L, rfl, hr, hh⟩
    · rw [k2, k3]
      have hs := hr.rep k s k1
      have e : w.parsers.set k ⟨s.p.core, s.p.json⟩ = w.parsers := set_same k2
      exact ⟨w, L, ⟨_, text_Parser_Tree fl full hs, by simp only [afterJSON, e]; rfl⟩, hr, hh⟩

/-- A program on the text ends, and gets the answers of parsers that are values. -/
theorem t_run (hr : WRel w vs L) (hh : Closed w.heap) (cs : List TCall) (hc : ∀ c ∈ cs, ∀ k pad b, c ≠ .base (.tree k pad b)) :
    ∃ w' L', TRun fl w cs (tVals fl vs cs).1 w' ∧ Closed w'.heap ∧ WRel w' (tVals fl vs cs).2 L' := by
  induction cs generalizing w vs L with
  | nil => exact ⟨w, L, .nil, hh, hr⟩
  | cons c cs ih =>
    obtain ⟨w', L', h1, h2, h3⟩ := t_step (fl := fl) hr hh c (hc c List.mem_cons_self)
    rw [tVals]
    cases ha : (tVal fl vs c).2.isPanic with
    | true =>
      simp only [if_true]
      exact ⟨w', L', .stop h1 ha, h3, h2⟩
    | false =>
      simp only [Bool.false_eq_true, if_false]
      obtain ⟨w'', L'', k1, k2, k3⟩ := ih h2 h3 fun c h => hc c (List.mem_cons_of_mem _ h)
      exact ⟨w'', L'', .step h1 ha k1, k2, k3⟩

end

end Jin.Go

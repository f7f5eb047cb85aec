import Verif.Go.ParserKeep
import Verif.Go.ParserNew
import Verif.Proof.PtrWorld
/-!
# Go.ParserText — programs that use parsers of the text
-/

namespace Jin.Go

section
variable (fl : FloatLib UInt64) {h : NHeap} (hh : Closed h) (p : ParserP) (hp : p.core < h.length)

/-- Fuel for the values in memory. -/
def roomH (h : NHeap) : Nat := (h.map fun r => r.value.length + (r.down.length + 1)).sum

theorem roomH_le {h : NHeap} {r : NodeRec} (hr : r ∈ h) : r.value.length + (r.down.length + 1) ≤ roomH h :=
  le_sum_mem (List.mem_map_of_mem (f := fun r : NodeRec => r.value.length + (r.down.length + 1)) hr)

/-- Fuel for the text after a change. -/
def roomM (path : List Bytes) (m : Mut) : Nat := (m.json?.map fun j => need j path).getD 0

theorem roomM_le {path : List Bytes} {m : Mut} {n : Nat} (hn : roomM path m < n) : ∀ j, m.json? = some j → need j path < n := by
  intro j hj
  rw [roomM, hj] at hn
  exact hn

include hh hp

theorem text_Parser_Get (path : List Bytes) :
    Call fl (go% Parser.Get) [.heap h, .ptr p.core, .bytes p.json] path
      (match p.Get h path with
      | .ok v => .ok [.heap h, .ptr p.core, .bytes p.json, .bytes v, .nil]
      | .err e => .ok [.heap h, .ptr p.core, .bytes p.json, .nil, .err e]
      | .panic => .panic) :=
  Call.of (g := Src.Parser.Get) (ps := [_, _, _]) rfl rfl rfl rfl (roomH h) 2 fun _ _ hn =>
    run_Parser_Get hh p hp path fun r hr => by have := roomH_le hr; omega

theorem text_Parser_Set (newVal : Bytes) (path : List Bytes) :
    Call fl (go% Parser.Set) [.heap h, .ptr p.core, .bytes p.json, .bytes newVal] path (presVals (p.Set h newVal path)) :=
  Call.of (g := Src.Parser.Set) (ps := [_, _, _, _]) rfl rfl rfl rfl (need p.json path + newVal.length + roomM path (Jin.Set p.json newVal path)) 3 fun _ _ hn =>
    run_Parser_Set hh p hp newVal path (by omega) (by omega) (roomM_le (by omega))

theorem text_Parser_SetKey (newKey : Bytes) (path : List Bytes) :
    Call fl (go% Parser.SetKey) [.heap h, .ptr p.core, .bytes p.json, .bytes newKey] path (presVals (p.SetKey h newKey path)) :=
  Call.of (g := Src.Parser.SetKey) (ps := [_, _, _, _]) rfl rfl rfl rfl
    (need p.json path + need p.json (path.dropLast ++ [newKey]) + roomM path (Jin.SetKey p.json newKey path)) 3 fun _ _ hn =>
    run_Parser_SetKey hh p hp newKey path (by omega) (by omega) (roomM_le (by omega))

theorem text_Parser_Delete (path : List Bytes) :
    Call fl (go% Parser.Delete) [.heap h, .ptr p.core, .bytes p.json] path (presVals (p.Delete h path)) :=
  Call.of (g := Src.Parser.Delete) (ps := [_, _, _]) rfl rfl rfl rfl (need p.json path + roomM path (Jin.Delete p.json path)) 3 fun _ _ hn =>
    run_Parser_Delete hh p hp path (by omega) (roomM_le (by omega))

theorem text_Parser_AddKeyValue (key newVal : Bytes) (path : List Bytes) :
    Call fl (go% Parser.AddKeyValue) [.heap h, .ptr p.core, .bytes p.json, .bytes key, .bytes newVal] path (presVals (p.AddKeyValue h key newVal path)) :=
  Call.of (g := Src.Parser.AddKeyValue) (ps := [_, _, _, _, _]) rfl rfl rfl rfl
    (roomH h + need p.json (path ++ [key]) + newVal.length + roomM path (Jin.AddKeyValue p.json key (some newVal) path)) 3 fun _ _ hn => by
    have hv : ∀ r ∈ h, r.value.length < _ := fun r hr => by have := roomH_le hr; exact Nat.lt_of_le_of_lt (by omega) hn
    cases h0 : path.length == 0
    · exact run_Parser_AddKeyValue_path hh p hp key newVal h0 hv (by omega) (by omega) (roomM_le (by omega))
    · exact run_Parser_AddKeyValue_root hh p hp key newVal h0 hv (by omega)

theorem text_Parser_Add (newVal : Bytes) (path : List Bytes) :
    Call fl (go% Parser.Add) [.heap h, .ptr p.core, .bytes p.json, .bytes newVal] path (presVals (p.Add h newVal path)) :=
  Call.of (g := Src.Parser.Add) (ps := [_, _, _, _]) rfl rfl rfl rfl
    (roomH h + need p.json path + newVal.length + roomM path (Jin.Add p.json newVal path)) 3 fun _ _ hn => by
    have hv : ∀ r ∈ h, r.value.length < _ := fun r hr => by have := roomH_le hr; exact Nat.lt_of_le_of_lt (by omega) hn
    cases h0 : path.length == 0
    · exact run_Parser_Add_path hh p hp newVal h0 hv (by omega) (by omega) (roomM_le (by omega))
    · exact run_Parser_Add_root hh p hp newVal h0 hv (by omega)

theorem text_Parser_Insert (index : Int) (newVal : Bytes) (path : List Bytes) :
    Call fl (go% Parser.Insert) [.heap h, .ptr p.core, .bytes p.json, .int index, .bytes newVal] path (presVals (p.Insert h index newVal path)) :=
  Call.of (g := Src.Parser.Insert) (ps := [_, _, _, _, _]) rfl rfl rfl rfl
    (roomH h + need p.json (path ++ [itoa index]) + newVal.length + roomM path (Jin.Insert p.json index newVal path)) 3 fun _ _ hn => by
    have hv : ∀ r ∈ h, r.value.length < _ := fun r hr => by have := roomH_le hr; exact Nat.lt_of_le_of_lt (by omega) hn
    have hd : ∀ r ∈ h, r.down.length + 1 < _ := fun r hr => by have := roomH_le hr; exact Nat.lt_of_le_of_lt (by omega) hn
    cases h0 : path.length == 0
    · exact run_Parser_Insert_path hh p hp index newVal h0 hv hd (by omega) (by omega) (roomM_le (by omega))
    · exact run_Parser_Insert_root hh p hp index newVal h0 hv hd (by omega) (by omega)

omit hp in
theorem text_Parser_GetNew {P : Parser} {up : Option Nat} {t : PTree} (hr : Rep h p P up t) (path : List Bytes) :
    Call fl (go% Parser.GetNew) [.heap h, .ptr p.core, .bytes p.json] path
      (match P.core.walk path, P.GetNew path with
      | .err _, _ => .ok [.heap h, .ptr p.core, .bytes p.json, .nil]
      | .ok _, .ok v => .ok [.heap h, .ptr p.core, .bytes p.json, .bytes v]
      | _, _ => .panic) := by
  let room : Nat := match P.core.walk path with
    | .ok s => match s.dive with
      | .ok v => v.length
      | _ => 0
    | _ => 0
  refine Call.of (g := Src.Parser.GetNew) (ps := [_, _, _]) rfl rfl rfl rfl (roomH h + room) (h.length + 2) fun fuel d hn => ?_
  rw [show d + (h.length + 2 + 1) = d + h.length + 3 by omega]
  refine run_Parser_GetNew hr hh path (by omega) (fun r hr => by have := roomH_le hr; omega) fun s v hs hv => ?_
  have : room = v.length := by simp only [room, hs, hv]
  omega

omit hp in
theorem text_Parse {json : Bytes} :
    match ParseP json h with
    | .ok (p, h') => Call1 fl (go% Parse) [.heap h, .bytes json] (.ok [.heap h', .ptr p.core, .bytes p.json, .nil]) ∧ Closed h' ∧ p.core < h'.length ∧ h.length ≤ h'.length
    | .err e => ∃ h', Call1 fl (go% Parse) [.heap h, .bytes json] (.ok [.heap h', .nil, .nil, .err e]) ∧ Closed h' ∧ h.length ≤ h'.length ∧ ∀ x : Nat, x < h.length → h'[x]? = h[x]?
    | .panic => Call1 fl (go% Parse) [.heap h, .bytes json] .panic := by
  have H := fun fuel d hf => run_Parse (fl := fl) (fuel := fuel) (d := d) (sp := false) hh (json := json) hf
  cases hx : ParseP json h with
  | panic =>
    simp only [hx] at H ⊢
    exact Call1.of json.length 3 H
  | ok x =>
    obtain ⟨p, h'⟩ := x
    simp only [hx] at H ⊢
    exact ⟨Call1.of json.length 3 fun fuel d hf => (H fuel d hf).1, (H _ 0 (Nat.lt_succ_self _)).2⟩
  | err e =>
    simp only [hx] at H ⊢
    obtain ⟨h', -, h2, h3, h4⟩ := H _ 0 (Nat.lt_succ_self _)
    refine ⟨h', Call1.of json.length 3 fun fuel d hf => ?_, h2, h3, fun x hx => pCore_frame h4 hx⟩
    obtain ⟨h'', k1, -, -, k4⟩ := H fuel d hf
    rw [h4] at k4
    cases k4
    exact k1

end

/-! ### Programs -/

/-- What a program does with the values that `Parse` returns: it keeps the parser, or sees the error. -/
def afterParse (w : WorldP) : R (List Val) → Option (WorldP × PAns)
  | .ok [.heap h, .ptr c, .bytes j, .nil] => some (⟨h, w.parsers ++ [⟨c, j⟩]⟩, .parsed none)
  | .ok [.heap h, .nil, .nil, .err e] => some (⟨h, w.parsers⟩, .parsed (some e))
  | .panic => some (w, .panic)
  | _ => none

/-- What a program does with the values that a mutator of its `k`-th parser returns. -/
def afterMut (w : WorldP) (k : Nat) : R (List Val) → Option (WorldP × PAns)
  | .ok [.heap h, .ptr c, .bytes j, .nil] => some (⟨h, w.parsers.set k ⟨c, j⟩⟩, .did j none)
  | .ok [.heap h, .ptr c, .bytes j, .err e] => some (⟨h, w.parsers.set k ⟨c, j⟩⟩, .did j (some e))
  | .panic => some (w, .panic)
  | _ => none

/-- What a program does with the values that `Get` returns. -/
def afterGet (w : WorldP) (k : Nat) : R (List Val) → Option (WorldP × PAns)
  | .ok [.heap h, .ptr c, .bytes j, .bytes v, .nil] => some (⟨h, w.parsers.set k ⟨c, j⟩⟩, .read (.ok v))
  | .ok [.heap h, .ptr c, .bytes j, .nil, .err e] => some (⟨h, w.parsers.set k ⟨c, j⟩⟩, .read (.err e))
  | .panic => some (w, .read .panic)
  | _ => none

/-- What a program does with the value that `GetNew` returns. -/
def afterNew (w : WorldP) (k : Nat) : R (List Val) → Option (WorldP × PAns)
  | .ok [.heap h, .ptr c, .bytes j, .bytes v] => some (⟨h, w.parsers.set k ⟨c, j⟩⟩, .read (.ok v))
  | .ok [.heap h, .ptr c, .bytes j, .nil] => some (⟨h, w.parsers.set k ⟨c, j⟩⟩, .read (.ok []))
  | .panic => some (w, .read .panic)
  | _ => none

/-- The text of a method is run on the `k`-th parser. -/
def TextOn (fl : FloatLib UInt64) (w : WorldP) (k : Nat) (f : Id) (args : List Val) (path : List Bytes)
    (after : R (List Val) → Option (WorldP × PAns)) (x : WorldP × PAns) : Prop :=
  match w.parsers[k]? with
  | none => x = (w, .noParser)
  | some p => ∃ r, Call fl f (.heap w.heap :: .ptr p.core :: .bytes p.json :: args) path r ∧ after r = some x

/-- One call of the text of /repo in a program that uses parsers: the memory and the parsers afterwards and what the
program sees.  The drawings of a tree are left out. -/
def TextStep (fl : FloatLib UInt64) (w : WorldP) : PtrCall → WorldP × PAns → Prop
  | .parse json, x => ∃ r, Call1 fl (go% Parse) [.heap w.heap, .bytes json] r ∧ afterParse w r = some x
  | .set k newVal path, x => TextOn fl w k (go% Parser.Set) [.bytes newVal] path (afterMut w k) x
  | .setKey k newKey path, x => TextOn fl w k (go% Parser.SetKey) [.bytes newKey] path (afterMut w k) x
  | .delete k path, x => TextOn fl w k (go% Parser.Delete) [] path (afterMut w k) x
  | .addKeyValue k key newVal path, x => TextOn fl w k (go% Parser.AddKeyValue) [.bytes key, .bytes newVal] path (afterMut w k) x
  | .add k newVal path, x => TextOn fl w k (go% Parser.Add) [.bytes newVal] path (afterMut w k) x
  | .insert k index newVal path, x => TextOn fl w k (go% Parser.Insert) [.int index, .bytes newVal] path (afterMut w k) x
  | .get k path, x => TextOn fl w k (go% Parser.Get) [] path (afterGet w k) x
  | .getNew k path, x => TextOn fl w k (go% Parser.GetNew) [] path (afterNew w k) x
  | .tree .., _ => False

/-- A program on the text of /repo: `TextRun fl w calls answers w'` when its calls, up to the first that panics, end
with these answers and leave `w'`. -/
inductive TextRun (fl : FloatLib UInt64) : WorldP → List PtrCall → List PAns → WorldP → Prop where
  | nil {w : WorldP} : TextRun fl w [] [] w
  | stop {w w' : WorldP} {c : PtrCall} {cs : List PtrCall} {a : PAns} : TextStep fl w c (w', a) → a.isPanic = true → TextRun fl w (c :: cs) [a] w'
  | step {w w' w'' : WorldP} {c : PtrCall} {cs : List PtrCall} {a : PAns} {as : List PAns} : TextStep fl w c (w', a) → a.isPanic = false →
      TextRun fl w' cs as w'' → TextRun fl w (c :: cs) (a :: as) w''

theorem TextOn.unique {fl : FloatLib UInt64} {w : WorldP} {k : Nat} {f : Id} {args : List Val} {path : List Bytes}
    {after : R (List Val) → Option (WorldP × PAns)} {x y : WorldP × PAns} (hx : TextOn fl w k f args path after x) (hy : TextOn fl w k f args path after y) : x = y := by
  unfold TextOn at hx hy
  cases hk : w.parsers[k]? <;> rw [hk] at hx hy
  · exact Eq.trans hx (Eq.symm hy)
  · obtain ⟨r, h1, h2⟩ := hx
    obtain ⟨s, h3, h4⟩ := hy
    rw [h1.unique h3, h4] at h2
    exact (Option.some.inj h2).symm

theorem TextStep.unique {fl : FloatLib UInt64} {w : WorldP} {c : PtrCall} {x y : WorldP × PAns} (hx : TextStep fl w c x) (hy : TextStep fl w c y) : x = y := by
  cases c with
  | parse json =>
    obtain ⟨r, h1, h2⟩ := hx
    obtain ⟨s, h3, h4⟩ := hy
    rw [h1.unique h3, h4] at h2
    exact (Option.some.inj h2).symm
  | tree => exact hx.elim
  | _ => exact TextOn.unique hx hy

theorem TextRun.unique {fl : FloatLib UInt64} {w w1 w2 : WorldP} {cs : List PtrCall} {as bs : List PAns} (ha : TextRun fl w cs as w1) (hb : TextRun fl w cs bs w2) :
    as = bs ∧ w1 = w2 := by
  induction ha generalizing bs w2 with
  | nil => cases hb; exact ⟨rfl, rfl⟩
  | stop h1 h2 =>
    cases hb with
    | stop k1 k2 => cases h1.unique k1; exact ⟨rfl, rfl⟩
    | step k1 k2 k3 => cases h1.unique k1; rw [h2] at k2; cases k2
  | step h1 h2 h3 ih =>
    cases hb with
    | stop k1 k2 => cases h1.unique k1; rw [h2] at k2; cases k2
    | step k1 k2 k3 => cases h1.unique k1; obtain ⟨rfl, rfl⟩ := ih k3; exact ⟨rfl, rfl⟩

section
variable {fl : FloatLib UInt64} {w : WorldP} {vs : List Parser} {L : List Slot}

theorem afterMut_pres (w : WorldP) (k : Nat) (r : PResP) : afterMut w k (presVals r) =
    match r with
    | .done p h e => some (⟨h, w.parsers.set k p⟩, .did p.json e)
    | .panic => some (w, .panic) := by
  cases r with
  | panic => rfl
  | done p h e => cases e <;> rfl

/-- A mutator of the text on one of several parsers. -/
theorem text_mut (hr : WRel w vs L) (hh : Closed w.heap) (k : Nat) {f : Id} {args : List Val} {path : List Bytes} {F : NHeap → ParserP → PResP} {G : Parser → PRes}
    (hF : ∀ p : ParserP, p.core < w.heap.length → Call fl f (.heap w.heap :: .ptr p.core :: .bytes p.json :: args) path (presVals (F w.heap p)))
    (hs : ∀ p : ParserP, p.core < w.heap.length → Sound w.heap p (F w.heap p))
    (hsim : ∀ h p P up t, Rep h p P up t → PRel h up t (F h p) (G P)) :
    ∃ w' L', TextOn fl w k f args path (afterMut w k) (w', (valMut vs k G).2) ∧ WRel w' (valMut vs k G).1 L' ∧ Closed w'.heap := by
  obtain ⟨L', h1, h2⟩ := hr.mut k hsim
  refine ⟨(w.mut k F).1, L', ?_, h1, ?_⟩
  · rw [← h2]
    unfold TextOn WorldP.mut
    rcases hr.slot k with ⟨-, k2, -⟩ | ⟨s, k1, k2, -⟩
    · rw [k2]
    · rw [k2]
      have hp : s.p.core < w.heap.length := by rw [(hr.rep k s k1).core]; exact (hr.rep k s k1).holds.here.lt _ (ptr_mem s.t)
      refine ⟨_, hF s.p hp, ?_⟩
      rw [afterMut_pres]
      simp only
      cases F w.heap s.p <;> rfl
  · unfold WorldP.mut
    rcases hr.slot k with ⟨-, k2, -⟩ | ⟨s, k1, k2, -⟩
    · rw [k2]; exact hh
    · rw [k2]
      have hp : s.p.core < w.heap.length := by rw [(hr.rep k s k1).core]; exact (hr.rep k s k1).holds.here.lt _ (ptr_mem s.t)
      have := hs s.p hp
      revert this
      simp only
      cases F w.heap s.p with
      | panic => exact fun _ => hh
      | done p' h' e => exact fun a => a.1

theorem set_same {α : Type} {l : List α} {k : Nat} {a : α} (h : l[k]? = some a) : l.set k a = l := by
  obtain ⟨hl, rfl⟩ := List.getElem?_eq_some_iff.1 h
  exact List.set_getElem_self hl

mutual
theorem dive_no_err : ∀ (n : Node) (e : Err), n.dive ≠ .err e
  | .mk l v kids, e => by
    rw [Node.dive]
    cases v with
    | nil => exact nofun
    | cons c v =>
      have := diveList_no_err (c :: v) c kids
      show (diveList (c :: v) c kids).bind _ ≠ _
      cases hd : diveList (c :: v) c kids with
      | err e => exact absurd hd (this e)
      | ok b => exact nofun
      | panic => exact nofun
theorem diveList_no_err (v : Bytes) (c : UInt8) : ∀ (ns : List Node) (e : Err), diveList v c ns ≠ .err e
  | [], e => by rw [diveList]; exact nofun
  | .mk l w ks :: ns, e => by
    rw [diveList]
    have h1 := dive_no_err (.mk l w ks)
    have h2 := diveList_no_err v c ns
    cases hd : diveList v c ns with
    | err e => exact absurd hd (h2 e)
    | ok b =>
      split
      · exact nofun
      · cases hn : Node.dive (.mk l w ks) with
        | err e => exact absurd hn (h1 e)
        | ok b => exact nofun
        | panic => exact nofun
    | panic =>
      split
      · exact nofun
      · cases hn : Node.dive (.mk l w ks) with
        | err e => exact absurd hn (h1 e)
        | ok b => exact nofun
        | panic => exact nofun
end

/-- A call of the text gives what the parser that is a value gives. -/
theorem text_step (hr : WRel w vs L) (hh : Closed w.heap) (c : PtrCall) (hc : ∀ k pad b, c ≠ .tree k pad b) :
    ∃ w' L', TextStep fl w c (w', (valStep vs c).2) ∧ WRel w' (valStep vs c).1 L' ∧ Closed w'.heap := by
  cases c with
  | tree k pad b => exact absurd rfl (hc k pad b)
  | set k newVal path =>
    exact text_mut hr hh k (fun p hp => text_Parser_Set fl hh p hp newVal path) (fun p hp => Set_sound hh hp newVal path) fun h p P up t h => set_sim h newVal path
  | setKey k newKey path =>
    exact text_mut hr hh k (fun p hp => text_Parser_SetKey fl hh p hp newKey path) (fun p hp => SetKey_sound hh hp newKey path) fun h p P up t h => setKey_sim h newKey path
  | delete k path =>
    exact text_mut hr hh k (fun p hp => text_Parser_Delete fl hh p hp path) (fun p hp => Delete_sound hh hp path) fun h p P up t h => delete_sim h path
  | addKeyValue k key newVal path =>
    exact text_mut hr hh k (fun p hp => text_Parser_AddKeyValue fl hh p hp key newVal path) (fun p hp => AddKeyValue_sound hh hp key newVal path) fun h p P up t h => addKeyValue_sim h key newVal path
  | add k newVal path =>
    exact text_mut hr hh k (fun p hp => text_Parser_Add fl hh p hp newVal path) (fun p hp => Add_sound hh hp newVal path) fun h p P up t h => add_sim h newVal path
  | insert k index newVal path =>
    exact text_mut hr hh k (fun p hp => text_Parser_Insert fl hh p hp index newVal path) (fun p hp => Insert_sound hh hp index newVal path) fun h p P up t h => insert_sim h index newVal path
  | get k path =>
    refine ⟨w, L, ?_, by rw [valStep, show (valLook vs k _).1 = vs from by unfold valLook; split <;> rfl]; exact hr, hh⟩
    simp only [TextStep, TextOn, valStep, valLook]
    rcases hr.slot k with ⟨-, k2, k3⟩ | ⟨s, k1, k2, k3⟩
    · rw [k2, k3]
    · rw [k2, k3]
      have hs := hr.rep k s k1
      have hp : s.p.core < w.heap.length := by rw [hs.core]; exact hs.holds.here.lt _ (ptr_mem s.t)
      refine ⟨_, text_Parser_Get fl hh s.p hp path, ?_⟩
      rw [get_sim hs]
      have e : w.parsers.set k ⟨s.p.core, s.p.json⟩ = w.parsers := set_same k2
      cases hg : s.P.Get path <;> simp only [afterGet, e, hg]
  | getNew k path =>
    refine ⟨w, L, ?_, by rw [valStep, show (valLook vs k _).1 = vs from by unfold valLook; split <;> rfl]; exact hr, hh⟩
    simp only [TextStep, TextOn, valStep, valLook]
    rcases hr.slot k with ⟨-, k2, k3⟩ | ⟨s, k1, k2, k3⟩
    · rw [k2, k3]
    · rw [k2, k3]
      have hs := hr.rep k s k1
      refine ⟨_, text_Parser_GetNew fl hh s.p hs path, ?_⟩
      have e : w.parsers.set k ⟨s.p.core, s.p.json⟩ = w.parsers := set_same k2
      cases hw : s.P.core.walk path with
      | panic => simp only [afterNew, Parser.GetNew, hw]
      | err x => simp only [afterNew, Parser.GetNew, hw, e]
      | ok n =>
        have hne : ∀ x, s.P.GetNew path ≠ .err x := by
          intro x hx
          rcases hs.walk path with ⟨t, -, -, h3⟩ | ⟨y, -, -, h3⟩
          · rw [hw] at h3
            cases h3
            rw [Parser.GetNew, hw] at hx
            simp only at hx
            split at hx
            · rcases cv_cases t.erase.value with ⟨v, hv⟩ | hv <;> rw [hv] at hx <;> cases hx
            · have hd := dive_no_err t.erase
              cases hv : t.erase.dive with
              | err y => exact hd y hv
              | panic => rw [hv] at hx; cases hx
              | ok v =>
                rw [hv] at hx
                replace hx : cleanValue v = .err x := hx
                rcases cv_cases v with ⟨u, hu⟩ | hu <;> rw [hu] at hx <;> cases hx
          · rw [hw] at h3; cases h3
        cases hg : s.P.GetNew path with
        | err x => exact absurd hg (hne x)
        | ok v => simp only [afterNew, e, hg]
        | panic => simp only [afterNew, hg]
  | parse json =>
    have ht := text_Parse fl hh (json := json)
    obtain ⟨L', h1, h2⟩ := hr.step (.parse json)
    cases hx : ParseP json w.heap with
    | panic =>
      simp only [hx] at ht
      simp only [WorldP.step, hx] at h1 h2
      exact ⟨w, L', ⟨_, ht, by rw [← h2]; rfl⟩, h1, hh⟩
    | ok x =>
      obtain ⟨p, h'⟩ := x
      simp only [hx] at ht
      simp only [WorldP.step, hx] at h1 h2
      exact ⟨_, L', ⟨_, ht.1, by rw [← h2]; rfl⟩, h1, ht.2.1⟩
    | err e =>
      simp only [hx] at ht
      simp only [WorldP.step, hx] at h1 h2
      obtain ⟨h', k1, k2, k3, k4⟩ := ht
      refine ⟨⟨h', w.parsers⟩, L', ⟨_, k1, by rw [← h2]; rfl⟩, ?_, k2⟩
      refine ⟨h1.left, h1.right, fun k s hs => ?_, h1.apart⟩
      have := h1.rep k s hs
      exact this.frame fun x hx => k4 x (this.holds.here.lt x hx)

/-- A program on the text of /repo ends, and gets the answers of parsers that are values. -/
theorem text_run (hr : WRel w vs L) (hh : Closed w.heap) (cs : List PtrCall) (hc : ∀ c ∈ cs, ∀ k pad b, c ≠ .tree k pad b) :
    ∃ w', TextRun fl w cs (valRun vs cs) w' ∧ Closed w'.heap ∧
      ∃ L' vs', WRel w' vs' L' ∧ ((∀ a ∈ valRun vs cs, a.isPanic = false) → vs' = valAfter vs cs) := by
  induction cs generalizing w vs L with
  | nil => exact ⟨w, .nil, hh, L, vs, hr, fun _ => rfl⟩
  | cons c cs ih =>
    obtain ⟨w', L', h1, h2, h3⟩ := text_step (fl := fl) hr hh c (hc c List.mem_cons_self)
    rw [valRun]
    cases ha : (valStep vs c).2.isPanic with
    | true =>
      simp only [ha, if_true]
      exact ⟨w', .stop h1 ha, h3, L', _, h2, fun h => by rw [h _ List.mem_cons_self] at ha; cases ha⟩
    | false =>
      simp only [ha, Bool.false_eq_true, if_false]
      obtain ⟨w'', k1, k2, L'', vs'', k3, k4⟩ := ih h2 h3 fun c h => hc c (List.mem_cons_of_mem _ h)
      exact ⟨w'', .step h1 ha k1, k2, L'', vs'', k3, fun h => k4 fun a ha => h a (List.mem_cons_of_mem _ ha)⟩

end

end Jin.Go

import Verif.Go.Run
/-!
# Go.Param — a function does not look into the state of the callback it gets

Two runs that differ in the callback and its state only stay related as long as the callbacks do.
-/

namespace Jin.Go

section
variable {W W' : Type}

mutual
theorem eval_same {Γ : Ctx W} {Γ' : Ctx W'} (hc : Γ.const = Γ'.const) (hf : Γ.fn = Γ'.fn) (env : Env) :
    ∀ e : Expr, eval Γ env e = eval Γ' env e
  | .var x => by rw [eval, eval, hc]
  | .lit v => by rw [eval, eval]
  | .not e => by rw [eval, eval, eval_same hc hf env e]
  | .neg e => by rw [eval, eval, eval_same hc hf env e]
  | .bin op a b => by rw [eval, eval, eval_same hc hf env a, eval_same hc hf env b]
  | .and a b => by rw [eval, eval, eval_same hc hf env a, eval_same hc hf env b]
  | .or a b => by rw [eval, eval, eval_same hc hf env a, eval_same hc hf env b]
  | .index a i => by rw [eval, eval, eval_same hc hf env a, eval_same hc hf env i]
  | .slice a lo hi => by rw [eval, eval, eval_same hc hf env a, eval_same hc hf env lo, eval_same hc hf env hi]
  | .sliceFrom a lo => by rw [eval, eval, eval_same hc hf env a, eval_same hc hf env lo]
  | .len a => by rw [eval, eval, eval_same hc hf env a]
  | .append a b => by rw [eval, eval, eval_same hc hf env a, eval_same hc hf env b]
  | .appendAll a b => by rw [eval, eval, eval_same hc hf env a, eval_same hc hf env b]
  | .conv a => by rw [eval, eval, eval_same hc hf env a]
  | .make k n => by rw [eval, eval, eval_same hc hf env n]
  | .makeCap k n c => by rw [eval, eval, eval_same hc hf env n, eval_same hc hf env c]
  | .list k es => by rw [eval, eval, evals_same hc hf env es]
  | .call f spread args => by rw [eval, eval, evals_same hc hf env args, hf]
  | .field a f => by rw [eval, eval, eval_same hc hf env a]
  | .upd a i v => by rw [eval, eval, eval_same hc hf env a, eval_same hc hf env i, eval_same hc hf env v]
theorem evals_same {Γ : Ctx W} {Γ' : Ctx W'} (hc : Γ.const = Γ'.const) (hf : Γ.fn = Γ'.fn) (env : Env) :
    ∀ es : Exprs, evals Γ env es = evals Γ' env es
  | .nil => by rw [evals, evals]
  | .cons e es => by rw [evals, evals, eval_same hc hf env e, evals_same hc hf env es]
end

/-- Related results of functions; a run that is stuck is related to every other. -/
def RRel (S : W → W' → Prop) (r : R (W × List Val)) (r' : R (W' × List Val)) : Prop :=
  match r with
  | .ok (w, vs) => ∃ w', r' = .ok (w', vs) ∧ S w w'
  | .panic => r' = .panic
  | .stuck => True

/-- Related callbacks. -/
def CbRel (S : W → W' → Prop) (cb : W → List Val → R (W × List Val)) (cb' : W' → List Val → R (W' × List Val)) : Prop :=
  ∀ w w' vs, S w w' → RRel S (cb w vs) (cb' w' vs)

/-- Related states. -/
def SRel (S : W → W' → Prop) (s : St W) (s' : St W') : Prop := S s.w s'.w ∧ s.env = s'.env

/-- Related ends of statements. -/
def ResRel (S : W → W' → Prop) (r : Res W) (r' : Res W') : Prop :=
  match r with
  | .norm s => ∃ s', r' = .norm s' ∧ SRel S s s'
  | .brk s => ∃ s', r' = .brk s' ∧ SRel S s s'
  | .cont s => ∃ s', r' = .cont s' ∧ SRel S s s'
  | .jump l s => ∃ s', r' = .jump l s' ∧ SRel S s s'
  | .ret w vs => ∃ w', r' = .ret w' vs ∧ S w w'
  | .panic => r' = .panic
  | .stuck => True

variable {S : W → W' → Prop}

theorem ResRel.ofR {α : Type} (x : R α) {f : α → Res W} {f' : α → Res W'} (h : ∀ a, ResRel S (f a) (f' a)) :
    ResRel S (Res.ofR x f) (Res.ofR x f') := by
  cases x with
  | ok a => exact h a
  | panic => rfl
  | stuck => trivial

theorem ResRel.ofRel {r : R (W × List Val)} {r' : R (W' × List Val)} {f : W × List Val → Res W} {f' : W' × List Val → Res W'}
    (hr : RRel S r r') (h : ∀ w w' vs, S w w' → ResRel S (f (w, vs)) (f' (w', vs))) :
    ResRel S (Res.ofR r f) (Res.ofR r' f') := by
  match r, hr with
  | .ok (w, vs), ⟨w', h1, h2⟩ => subst h1; exact h w w' vs h2
  | .panic, h1 => cases h1; rfl
  | .stuck, _ => trivial

theorem ResRel.andThen {r : Res W} {r' : Res W'} {f : St W → Res W} {f' : St W' → Res W'}
    (hr : ResRel S r r') (h : ∀ s s', SRel S s s' → ResRel S (f s) (f' s')) : ResRel S (r.andThen f) (r'.andThen f') := by
  cases r with
  | norm s => obtain ⟨s', rfl, h'⟩ := hr; exact h s s' h'
  | brk s => obtain ⟨s', rfl, h'⟩ := hr; exact ⟨s', rfl, h'⟩
  | cont s => obtain ⟨s', rfl, h'⟩ := hr; exact ⟨s', rfl, h'⟩
  | jump l s => obtain ⟨s', rfl, h'⟩ := hr; exact ⟨s', rfl, h'⟩
  | ret w vs => obtain ⟨w', rfl, h'⟩ := hr; exact ⟨w', rfl, h'⟩
  | panic => cases hr; rfl
  | stuck => trivial

theorem SRel.leave {s : St W} {s' : St W'} (h : SRel S s s') : SRel S s.leave s'.leave := by
  refine ⟨h.1, ?_⟩
  show s.env.leave = s'.env.leave
  rw [h.2]

theorem ResRel.leave {r : Res W} {r' : Res W'} (hr : ResRel S r r') : ResRel S r.leave r'.leave := by
  cases r with
  | norm s => obtain ⟨s', rfl, h'⟩ := hr; exact ⟨_, rfl, h'.leave⟩
  | brk s => obtain ⟨s', rfl, h'⟩ := hr; exact ⟨_, rfl, h'.leave⟩
  | cont s => obtain ⟨s', rfl, h'⟩ := hr; exact ⟨_, rfl, h'.leave⟩
  | jump l s => obtain ⟨s', rfl, h'⟩ := hr; exact ⟨_, rfl, h'.leave⟩
  | ret w vs => obtain ⟨w', rfl, h'⟩ := hr; exact ⟨w', rfl, h'⟩
  | panic => cases hr; rfl
  | stuck => trivial

theorem loopN_rel {c : St W → R Bool} {c' : St W' → R Bool} {post body : St W → Res W} {post' body' : St W' → Res W'}
    (hc : ∀ s s', SRel S s s' → c s = c' s') (hp : ∀ s s', SRel S s s' → ResRel S (post s) (post' s'))
    (hb : ∀ s s', SRel S s s' → ResRel S (body s) (body' s')) :
    ∀ n s s', SRel S s s' → ResRel S (loopN c post body n s) (loopN c' post' body' n s')
  | 0, _, _, _ => trivial
  | n + 1, s, s', h => by
    rw [loopN, loopN, hc s s' h]
    refine ResRel.ofR _ fun b => ?_
    cases b
    · exact ⟨s', rfl, h⟩
    · have hx := hb s s' h
      have hn := fun t t' (ht : SRel S t t') => (hp t t' ht).andThen (loopN_rel hc hp hb n)
      revert hx
      cases body s with
      | norm t => rintro ⟨t', h1, h2⟩; rw [h1]; exact hn t t' h2
      | cont t => rintro ⟨t', h1, h2⟩; rw [h1]; exact hn t t' h2
      | brk t => rintro ⟨t', h1, h2⟩; rw [h1]; exact ⟨t', rfl, h2⟩
      | jump l t => rintro ⟨t', h1, h2⟩; rw [h1]; exact ⟨t', rfl, h2⟩
      | ret w vs => rintro ⟨t', h1, h2⟩; rw [h1]; exact ⟨t', rfl, h2⟩
      | panic => intro h1; rw [show body' s' = .panic from h1]; rfl
      | stuck => intro _; trivial

theorem rangeN_rel {k v : Id} {body : St W → Res W} {body' : St W' → Res W'}
    (hb : ∀ s s', SRel S s s' → ResRel S (body s) (body' s')) :
    ∀ items s s', SRel S s s' → ResRel S (rangeN k v body items s) (rangeN k v body' items s')
  | [], s, s', h => ⟨s', rfl, h⟩
  | (i, a) :: items, s, s', h => by
    rw [rangeN, rangeN]
    have hx := (hb ⟨s.w, Env.new v a (Env.new k i ((0, .nil) :: s.env))⟩ ⟨s'.w, Env.new v a (Env.new k i ((0, .nil) :: s'.env))⟩
      ⟨h.1, by rw [h.2]⟩).leave
    revert hx
    generalize (body ⟨s.w, Env.new v a (Env.new k i ((0, .nil) :: s.env))⟩).leave = r
    generalize (body' ⟨s'.w, Env.new v a (Env.new k i ((0, .nil) :: s'.env))⟩).leave = r'
    intro hx
    cases r with
    | norm t => obtain ⟨t', rfl, h2⟩ := hx; exact rangeN_rel hb items t t' h2
    | cont t => obtain ⟨t', rfl, h2⟩ := hx; exact rangeN_rel hb items t t' h2
    | brk t => obtain ⟨t', rfl, h2⟩ := hx; exact ⟨t', rfl, h2⟩
    | jump l t => obtain ⟨t', rfl, h2⟩ := hx; exact ⟨t', rfl, h2⟩
    | ret w vs => obtain ⟨t', rfl, h2⟩ := hx; exact ⟨t', rfl, h2⟩
    | panic => cases hx; rfl
    | stuck => trivial

theorem closing_rel {caps : List Id} {env : Env} {r : Res W} {r' : Res W'} (h : ResRel S r r') :
    RRel (SRel S) (closing caps env r) (closing caps env r') := by
  cases r with
  | ret w vs =>
    obtain ⟨w', rfl, h'⟩ := h
    show RRel _ (R.bind _ _) (R.bind _ _)
    cases bindVars false caps (vs.take caps.length) env with
    | ok env => exact ⟨_, rfl, h', rfl⟩
    | panic => rfl
    | stuck => trivial
  | panic => cases h; rfl
  | _ => trivial

/-- Related contexts. -/
structure CtxRel (S : W → W' → Prop) (Γ : Ctx W) (Γ' : Ctx W') : Prop where
  const : Γ.const = Γ'.const
  fn : Γ.fn = Γ'.fn
  cb : CbRel S Γ.cb Γ'.cb
  fnIn : ∀ {V V' : Type} (T : V → V' → Prop) cb cb' f spread args v v', CbRel T cb cb' → T v v' →
    RRel T (Γ.fnIn cb f spread args v) (Γ'.fnIn cb' f spread args v')

theorem exec_rel {Γ : Ctx W} {Γ' : Ctx W'} (h : CtxRel S Γ Γ') (fuel : Nat) :
    ∀ (a : Stmt) (s : St W) (s' : St W'), SRel S s s' → ResRel S (exec Γ fuel a s) (exec Γ' fuel a s') := by
  have he : ∀ (env : Env) e, eval Γ env e = eval Γ' env e := fun env => eval_same h.const h.fn env
  have hes : ∀ (env : Env) es, evals Γ env es = evals Γ' env es := fun env => evals_same h.const h.fn env
  have hset : ∀ (w : W) (w' : W') (o : Option Env), S w w' →
      ResRel S (match o with | some env => .norm ⟨w, env⟩ | none => .stuck) (match o with | some env => .norm ⟨w', env⟩ | none => .stuck) := by
    intro w w' o hw
    cases o with
    | none => trivial
    | some env => exact ⟨_, rfl, hw, rfl⟩
  intro a
  induction a with
  | skip => intro s s' hs; exact ⟨s', rfl, hs⟩
  | seq a b iha ihb =>
    intro s s' hs
    exact (iha s s' hs).andThen ihb
  | block a ih =>
    rintro ⟨w, env⟩ ⟨w', env'⟩ ⟨hw, rfl⟩
    rw [exec, exec]
    exact (ih ⟨w, (0, .nil) :: env⟩ ⟨w', (0, .nil) :: env⟩ ⟨hw, rfl⟩).leave
  | decl x e =>
    rintro ⟨w, env⟩ ⟨w', _⟩ ⟨hw, rfl⟩
    rw [exec, exec, he]
    exact ResRel.ofR _ fun v => ⟨_, rfl, hw, rfl⟩
  | assign x e =>
    rintro ⟨w, env⟩ ⟨w', _⟩ ⟨hw, rfl⟩
    rw [exec, exec, he]
    exact ResRel.ofR _ fun v => hset w w' _ hw
  | store x i e =>
    rintro ⟨w, env⟩ ⟨w', _⟩ ⟨hw, rfl⟩
    rw [exec, exec]
    simp only [he]
    exact ResRel.ofR _ fun _ => ResRel.ofR _ fun _ => ResRel.ofR _ fun _ => ResRel.ofR _ fun _ => hset w w' _ hw
  | copy x i e =>
    rintro ⟨w, env⟩ ⟨w', _⟩ ⟨hw, rfl⟩
    rw [exec, exec]
    simp only [he]
    exact ResRel.ofR _ fun _ => ResRel.ofR _ fun _ => ResRel.ofR _ fun _ => ResRel.ofR _ fun _ => hset w w' _ hw
  | call new xs f spread args =>
    rintro ⟨w, env⟩ ⟨w', _⟩ ⟨hw, rfl⟩
    rw [exec, exec]
    simp only [hes, h.fn]
    exact ResRel.ofR _ fun _ => ResRel.ofR _ fun _ => ResRel.ofR _ fun _ => ⟨_, rfl, hw, rfl⟩
  | callback new xs args =>
    rintro ⟨w, env⟩ ⟨w', _⟩ ⟨hw, rfl⟩
    rw [exec, exec]
    simp only [hes]
    exact ResRel.ofR _ fun vs => ResRel.ofRel (h.cb w w' vs hw) fun w w' _ hw => ResRel.ofR _ fun _ => ⟨_, rfl, hw, rfl⟩
  | new x l v u =>
    rintro ⟨w, env⟩ ⟨w', _⟩ ⟨hw, rfl⟩
    rw [exec, exec]
    simp only [he]
    refine ResRel.ofR _ fun _ => ResRel.ofR _ fun _ => ResRel.ofR _ fun _ => ResRel.ofR _ fun h => ResRel.ofR _ fun r => ?_
    cases env.set heapId (.heap (h ++ [r])) with
    | none => trivial
    | some env => exact ⟨_, rfl, hw, rfl⟩
  | setField a f e =>
    rintro ⟨w, env⟩ ⟨w', _⟩ ⟨hw, rfl⟩
    rw [exec, exec]
    simp only [he]
    exact ResRel.ofR _ fun _ => ResRel.ofR _ fun _ => ResRel.ofR _ fun _ => hset w w' _ hw
  | callCb new xs f spread args =>
    rintro ⟨w, env⟩ ⟨w', _⟩ ⟨hw, rfl⟩
    rw [exec, exec]
    simp only [hes]
    exact ResRel.ofR _ fun vs => ResRel.ofRel (h.fnIn S _ _ _ _ _ _ _ h.cb hw) fun w w' _ hw => ResRel.ofR _ fun _ => ⟨_, rfl, hw, rfl⟩
  | callLit new xs f spread args ps caps body ih =>
    rintro ⟨w, env⟩ ⟨w', _⟩ ⟨hw, rfl⟩
    rw [exec, exec]
    simp only [hes]
    refine ResRel.ofR _ fun vs => ?_
    have hcb : CbRel (SRel S)
        (fun (s : St W) vs => (bindVars true ps vs ((0, .nil) :: s.env)).bind fun env => closing caps s.env (exec Γ fuel body ⟨s.w, env⟩))
        (fun (s : St W') vs => (bindVars true ps vs ((0, .nil) :: s.env)).bind fun env => closing caps s.env (exec Γ' fuel body ⟨s.w, env⟩)) := by
      rintro ⟨w, env⟩ ⟨w', _⟩ vs ⟨hw, rfl⟩
      show RRel _ (R.bind _ _) (R.bind _ _)
      cases bindVars true ps vs ((0, .nil) :: env) with
      | ok env' => exact closing_rel (ih ⟨w, env'⟩ ⟨w', env'⟩ ⟨hw, rfl⟩)
      | panic => rfl
      | stuck => trivial
    have hr := h.fnIn (SRel S) _ _ f spread vs ⟨w, env⟩ ⟨w', env⟩ hcb ⟨hw, rfl⟩
    revert hr
    generalize Γ.fnIn _ f spread vs _ = r
    generalize Γ'.fnIn _ f spread vs _ = r'
    intro hr
    match r, hr with
    | .ok (s, vs), ⟨s', h1, h2⟩ =>
      subst h1
      obtain ⟨w, env⟩ := s
      obtain ⟨w', _⟩ := s'
      obtain ⟨hw, rfl⟩ := h2
      exact ResRel.ofR (S := S) (bindVars new xs vs env) (f := fun env => .norm ⟨w, env⟩) (f' := fun env => .norm ⟨w', env⟩) fun _ => ⟨_, rfl, hw, rfl⟩
    | .panic, h1 => cases h1; rfl
    | .stuck, _ => trivial
  | ite c a b iha ihb =>
    rintro ⟨w, env⟩ ⟨w', _⟩ ⟨hw, rfl⟩
    rw [exec, exec]
    simp only [he]
    refine ResRel.ofR _ fun _ => ResRel.ofR _ fun x => ?_
    cases x
    · exact ihb _ _ ⟨hw, rfl⟩
    · exact iha _ _ ⟨hw, rfl⟩
  | loop c post body ihp ihb =>
    intro s s' hs
    rw [exec, exec]
    exact loopN_rel (fun s s' hs => by rw [hs.2, he]) ihp ihb fuel s s' hs
  | range k v e body ih =>
    rintro ⟨w, env⟩ ⟨w', _⟩ ⟨hw, rfl⟩
    rw [exec, exec]
    simp only [he]
    exact ResRel.ofR _ fun _ => ResRel.ofR _ fun items => rangeN_rel ih items _ _ ⟨hw, rfl⟩
  | switch a ih =>
    intro s s' hs
    rw [exec, exec]
    have hx := ih s s' hs
    revert hx
    generalize exec Γ fuel a s = r
    generalize exec Γ' fuel a s' = r'
    intro hx
    cases r with
    | norm t => obtain ⟨t', rfl, h2⟩ := hx; exact ⟨t', rfl, h2⟩
    | cont t => obtain ⟨t', rfl, h2⟩ := hx; exact ⟨t', rfl, h2⟩
    | brk t => obtain ⟨t', rfl, h2⟩ := hx; exact ⟨t', rfl, h2⟩
    | jump l t => obtain ⟨t', rfl, h2⟩ := hx; exact ⟨t', rfl, h2⟩
    | ret w vs => obtain ⟨t', rfl, h2⟩ := hx; exact ⟨t', rfl, h2⟩
    | panic => cases hx; rfl
    | stuck => trivial
  | brk => intro s s' hs; exact ⟨s', rfl, hs⟩
  | cont => intro s s' hs; exact ⟨s', rfl, hs⟩
  | goto l => intro s s' hs; exact ⟨s', rfl, hs⟩
  | label a l b iha ihb =>
    intro s s' hs
    rw [exec, exec]
    have hx := iha s s' hs
    revert hx
    generalize exec Γ fuel a s = r
    generalize exec Γ' fuel a s' = r'
    intro hx
    cases r with
    | norm t => obtain ⟨t', rfl, h2⟩ := hx; exact ihb t t' h2
    | jump l' t =>
      obtain ⟨t', rfl, h2⟩ := hx
      show ResRel S (if l' == l then _ else _) (if l' == l then _ else _)
      split
      · exact ihb t t' h2
      · exact ⟨t', rfl, h2⟩
    | cont t => obtain ⟨t', rfl, h2⟩ := hx; exact ⟨t', rfl, h2⟩
    | brk t => obtain ⟨t', rfl, h2⟩ := hx; exact ⟨t', rfl, h2⟩
    | ret w vs => obtain ⟨t', rfl, h2⟩ := hx; exact ⟨t', rfl, h2⟩
    | panic => cases hx; rfl
    | stuck => trivial
  | ret es =>
    rintro ⟨w, env⟩ ⟨w', _⟩ ⟨hw, rfl⟩
    rw [exec, exec, hes]
    exact ResRel.ofR _ fun vs => ⟨_, rfl, hw⟩
  | retCall f spread args =>
    rintro ⟨w, env⟩ ⟨w', _⟩ ⟨hw, rfl⟩
    rw [exec, exec]
    simp only [hes, h.fn]
    exact ResRel.ofR _ fun _ => ResRel.ofR _ fun _ => ⟨_, rfl, hw⟩

theorem run_rel {f : Func} {Γ : Ctx W} {Γ' : Ctx W'} (h : CtxRel S Γ Γ') {fuel : Nat} {spread : Bool} {args : List Val} {w : W} {w' : W'}
    (hw : S w w') : RRel S (f.run Γ fuel spread args w) (f.run Γ' fuel spread args w') := by
  rw [Func.run, Func.run]
  cases bindParams f.variadic spread f.params args with
  | panic => rfl
  | stuck => trivial
  | ok env =>
    have hx := exec_rel h fuel f.body ⟨w, env⟩ ⟨w', env⟩ ⟨hw, rfl⟩
    simp only [R.bind]
    revert hx
    generalize exec Γ fuel f.body _ = r
    generalize exec Γ' fuel f.body _ = r'
    intro hx
    cases r with
    | norm t => obtain ⟨t', rfl, h2⟩ := hx; exact ⟨t'.w, rfl, h2.1⟩
    | ret w vs => obtain ⟨t', rfl, h2⟩ := hx; exact ⟨t', rfl, h2⟩
    | panic => cases hx; rfl
    | _ => trivial

end

theorem fnIn_rel (P : Prog) (fuel : Nat) : ∀ (depth : Nat) {V V' : Type} (T : V → V' → Prop) cb cb' f spread args v v', CbRel T cb cb' → T v v' →
    RRel T (P.fnIn fuel depth cb f spread args v) (P.fnIn fuel depth cb' f spread args v')
  | 0, _, _, _, _, _, _, _, _, _, _, _, _ => trivial
  | depth + 1, _, _, T, cb, cb', f, spread, args, v, v', hcb, hv => by
    rw [Prog.fnIn, Prog.fnIn]
    cases P.funcs.find? fun g => g.name == f with
    | some g =>
      refine run_rel (S := T) (CtxRel.mk rfl rfl hcb ?_) hv
      intro V V' T cb cb' f spread args v v'
      exact fnIn_rel P fuel depth T cb cb' f spread args v v'
    | none =>
      show RRel T (R.bind _ _) (R.bind _ _)
      cases P.lib f args with
      | ok r => exact ⟨v', rfl, hv⟩
      | panic => rfl
      | stuck => trivial

/-- A function run with related callbacks in related states. -/
theorem Prog.run_rel {W W' : Type} {S : W → W' → Prop} {P : Prog} {f : Func} {fuel depth : Nat} {cb : W → List Val → R (W × List Val)}
    {cb' : W' → List Val → R (W' × List Val)} {spread : Bool} {args : List Val} {w : W} {w' : W'} (hcb : CbRel S cb cb') (hw : S w w') :
    RRel S (f.run (P.ctx fuel depth cb) fuel spread args w) (f.run (P.ctx fuel depth cb') fuel spread args w') :=
  Jin.Go.run_rel (S := S) (CtxRel.mk rfl rfl hcb fun {_ _} T cb cb' f spread args v v' => fnIn_rel P fuel depth T cb cb' f spread args v v') hw

end Jin.Go

import Verif.Lemmas.Place
import Verif.Props.Containers
import Verif.Spec.Concrete

/-!
# C34, C35: parents and dot access

`ReadsAt`, `Denotes`, `FailsWith`, `Rejected`, `dotted` and `Follows` are in `Spec/Place.lean`.
-/

namespace Over

section
variable [Unicode]

/-- What a text denotes does not depend on the name of the field that is defined by it. -/
theorem denotes_any_name (fs : FS) (rt : Rt) (A : List (Str × Str)) (u : Str) (p : Obj) (h : ReadsAt fs rt A u p)
    (e : Str) (ex : Expr) (he : SpExpr ex e) (v : Value) (hd : Denotes fs rt A u p e v) (y : Str) (hy : FieldName y)
    (hn : NotNamed p.pairs y) :
    ∃ p', ReadsAt fs rt A (u ++ c!"\n" ++ y ++ c!":" ++ e) p' ∧ p'.pairs = p.pairs ++ [.mk y v] ∧
      p'.parent = p.parent := by
  obtain ⟨st, -, hc⟩ := at_place h
  obtain ⟨st', hev⟩ := hd.eval hc he
  exact ((field_at hc hy hn he).2.2 v st' hev).2

/-! ## C34 -/

theorem spParent {e : Str} {ex : Expr} (he : SpExpr ex e) : SpDoc [.mk .parent ex] (c!"^" ++ ':' :: e) :=
  spOne .parent he

/-- C34: `^: e` makes the object that `e` denotes the parent; the fields stay, they hide inherited fields of the same
name, and all other fields of the parent (and of its parents) are found through the object. -/
theorem c34_parent (fs : FS) (rt : Rt) (A : List (Str × Str)) (u : Str) (p : Obj) (h : ReadsAt fs rt A u p)
    (hp : p.parent = none) (e : Str) (ex : Expr) (he : SpExpr ex e) (q : Obj) (hv : Denotes fs rt A u p e (.obj q)) :
    ∃ p', ReadsAt fs rt A (u ++ c!"\n" ++ c!"^" ++ c!":" ++ e) p' ∧ p'.pairs = p.pairs ∧ p'.parent = some q ∧
      (∀ f v, FirstNamed p.pairs f v → p'.get f = some v) ∧
      (∀ f, NotNamed p.pairs f → p'.get f = q.get f) := by
  obtain ⟨st, -, hc⟩ := at_place h
  obtain ⟨st', hev⟩ := hv.eval hc he
  obtain ⟨-, h2⟩ := hc _ _ (spParent he)
  rw [← text_field] at h2
  obtain ⟨-, i, h4⟩ := h2 p.pairs (some q) st' (by
    rw [evalFields_parent, hp, hev]
    rfl)
  refine ⟨_, h4, rfl, rfl, ?_, ?_⟩
  · intro f v hf
    have : findPair p.pairs f = some (.mk f v) := firstNamed_find hf
    simp [Obj.get, this, Pair.value]
  · intro f hf
    have : findPair p.pairs f = none := notNamed_find hf
    simp [Obj.get, this, Obj.getParentField]

/-- C34: a parent that is not an object is rejected; the message names its type. -/
theorem c34_not_object (fs : FS) (rt : Rt) (A : List (Str × Str)) (u : Str) (p : Obj) (h : ReadsAt fs rt A u p)
    (hp : p.parent = none) (e : Str) (ex : Expr) (he : SpExpr ex e) (v : Value) (hv : Denotes fs rt A u p e v)
    (hno : ∀ o, v ≠ .obj o) (rest : Str) (hr : WellFormed rest) :
    ∃ l c, fromStr fs (nest A (u ++ c!"\n" ++ c!"^" ++ c!":" ++ e ++ c!"\n" ++ rest)) rt =
      .err ⟨none, .overError ((OverError.typeMismatch .obj v.getType).display ++ c!" at line " ++ showNat l ++
        c!", col " ++ showNat c)⟩ := by
  obtain ⟨st, -, hc⟩ := at_place h
  obtain ⟨st', hev⟩ := hv.eval hc he
  obtain ⟨dr, hdr⟩ := hr
  obtain ⟨h1, -⟩ := hc _ _ (spDoc_append hdr _ _ (spParent he))
  have := h1 (.sem none (.api (.typeMismatch .obj v.getType))) (by
    rw [evalFields_append, evalFields_parent, hp, hev]
    cases v <;> first | rfl | exact (hno _ rfl).elim)
  have e1 : u ++ '\n' :: ((c!"^" ++ ':' :: e) ++ '\n' :: rest) =
      u ++ c!"\n" ++ c!"^" ++ c!":" ++ e ++ c!"\n" ++ rest := by simp
  rw [e1] at this
  obtain ⟨kind, hk, h4⟩ := this.fails
  cases hk
  exact ⟨_, _, h4⟩

/-- C34: a second parent is rejected, whatever it is. -/
theorem c34_twice (fs : FS) (rt : Rt) (A : List (Str × Str)) (u : Str) (p q : Obj) (h : ReadsAt fs rt A u p)
    (hp : p.parent = some q) (e : Str) (ex : Expr) (he : SpExpr ex e) (rest : Str) (hr : WellFormed rest) :
    FailsWith fs rt (nest A (u ++ c!"\n" ++ c!"^" ++ c!":" ++ e ++ c!"\n" ++ rest)) (.duplicateField c!"^") := by
  obtain ⟨st, -, hc⟩ := at_place h
  obtain ⟨dr, hdr⟩ := hr
  obtain ⟨h1, -⟩ := hc _ _ (spDoc_append hdr _ _ (spParent he))
  have := h1 (.sem none (.duplicateField c!"^")) (by
    rw [evalFields_append, evalFields_parent, hp]
    rfl)
  have e1 : u ++ '\n' :: ((c!"^" ++ ':' :: e) ++ '\n' :: rest) =
      u ++ c!"\n" ++ c!"^" ++ c!":" ++ e ++ c!"\n" ++ rest := by simp
  rw [e1] at this
  obtain ⟨kind, hk, h4⟩ := this.fails
  cases hk
  exact ⟨_, _, h4⟩

/-! ## C35 -/

/-- Looking up a name that is no keyword changes nothing. -/
theorem evalName_state {ps : List Pair} {x : Str} (hx : FieldName x ∨ GlobalName x) {st st' : ESt} {v : Value}
    (h : evalName none ps x st = .ok (v, st')) : st' = st := by
  rcases hx with hx | hx
  · rw [evalName_field hx] at h
    split at h <;> cases h
    rfl
  · rw [evalName_global hx] at h
    unfold evalGlobal at h
    split at h <;> cases h
    rfl

/-- Paths and numbers mean the same at every depth. -/
theorem evalTerm_afterDot {fs : FS} {load : Loader} : ∀ {t : Term} {s : Str}, SpTerm t s → t.afterDot = true →
    ∀ (ps : List Pair) (k k' : Nat) (st : ESt),
    evalTerm fs none [] load t ps k st = evalTerm fs none [] load t ps k' st
  | .dot x t, s, hs, _, ps, k, k', st => by
    have hsub : t.afterDot = true ∧ ∃ s', SpTerm t s' := by
      cases hs with
      | dot hx ha' ht' => exact ⟨ha', _, ht'⟩
    obtain ⟨ha', s', ht'⟩ := hsub
    have hi : ∀ (ps : List Pair) (st : ESt),
        evalTerm fs none [] load t ps (k + 1) st = evalTerm fs none [] load t ps (k' + 1) st :=
      fun ps st => evalTerm_afterDot ht' ha' ps (k + 1) (k' + 1) st
    simp only [evalTerm]
    cases hn : evalName none ps x st with
    | error e => rw [EM.bind_err hn, EM.bind_err hn]
    | ok y =>
      obtain ⟨v, st1⟩ := y
      rw [EM.bind_ok hn, EM.bind_ok hn]
      have hb : ∀ (f : Value → EM Value) (ps : List Pair),
          (evalTerm fs none [] load t ps (k + 1) >>= f) st1 = (evalTerm fs none [] load t ps (k' + 1) >>= f) st1 := by
        intro f ps
        show EM.bind _ _ _ = EM.bind _ _ _
        unfold EM.bind
        rw [hi]
      cases v with
      | arr i ty vs => exact hb _ _
      | tup i ty vs => exact hb _ _
      | obj o =>
        simp only []
        by_cases h1 : t.isNumber = true
        · rw [if_pos h1, if_pos h1]
        · rw [if_neg h1, if_neg h1]
          by_cases h2 : t.isGlobal = true
          · rw [if_pos h2, if_pos h2]
          · rw [if_neg h2, if_neg h2]
            exact hi _ _
      | _ => rfl
  | .name x, s, _, _, ps, k, k', st => by simp only [evalTerm]
  | .int x, s, _, _, ps, k, k', st => by simp only [evalTerm]
  | .frac x, s, _, _, ps, k, k', st => by simp only [evalTerm]
termination_by structural t => t

/-- The value of `v.t`. -/
def dotOn (fs : FS) (load : Loader) (t : Term) (v : Value) (ps : List Pair) (k : Nat) : EM Value :=
  match v with
  | .arr _ _ vs => do
    let i ← evalTerm fs none [] load t ps (k + 1)
    evalIndex none .arrOutOfBounds vs i
  | .tup _ _ vs => do
    let i ← evalTerm fs none [] load t ps (k + 1)
    evalIndex none .tupOutOfBounds vs i
  | .obj o =>
    if t.isNumber then .fail none .numberAfterDot
    else if t.isGlobal then .fail none .globalAfterDot
    else evalTerm fs none [] load t o.pairs (k + 1)
  | v => .fail none (.invalidDot v.getType)

omit [Unicode] in
theorem evalTerm_dot {fs : FS} {load : Loader} {x : Str} {t : Term} {ps : List Pair} {k : Nat} {st st' : ESt} {v : Value}
    (h : evalName none ps x st = .ok (v, st')) :
    evalTerm fs none [] load (.dot x t) ps k st = dotOn fs load t v ps k st' := by
  simp only [evalTerm]
  rw [EM.bind_ok h]
  cases v <;> rfl

omit [Unicode] in
theorem dotOn_name {fs : FS} {load : Loader} {f : Str} (hg : (Term.name f).isGlobal = false) (o : Obj) (ps : List Pair)
    (k : Nat) : dotOn fs load (.name f) (.obj o) ps k = evalName none o.pairs f := by
  unfold dotOn
  simp only []
  rw [if_neg (by simp [Term.isNumber]), if_neg (by simp [hg])]
  simp only [evalTerm]

/-- `f₁.f₂.….t` -/
def pathTo : List Str → Term → Term
  | [], t => t
  | f :: fs, t => .dot f (pathTo fs t)

theorem pathTo_spelled {fds : List Str} (hf : ∀ f ∈ fds, FieldName f) {t : Term} {s : Str} (ht : SpTerm t s)
    (ha : t.afterDot = true) :
    (pathTo fds t).afterDot = true ∧ ∃ s', SpTerm (pathTo fds t) s' ∧ '.' :: s' = dotted fds ++ '.' :: s := by
  induction fds with
  | nil => exact ⟨ha, s, ht, rfl⟩
  | cons f fds ih =>
    obtain ⟨h1, s', h2, h3⟩ := ih (fun g hg => hf g (by simp [hg]))
    refine ⟨rfl, f ++ '.' :: s', .dot (hf f (by simp)).varName h1 h2, ?_⟩
    simp only [dotted, List.cons_append, List.append_assoc, h3]

/-- The text `x.f₁.….fₙ.s` -/
theorem spPath {x : Str} (hx : FieldName x ∨ GlobalName x) {fds : List Str} (hf : ∀ f ∈ fds, FieldName f) {t : Term}
    {s : Str} (ht : SpTerm t s) (ha : t.afterDot = true) :
    SpExpr (.mk (.dot x (pathTo fds t)) []) (x ++ dotted fds ++ c!"." ++ s) := by
  obtain ⟨h1, s', h2, h3⟩ := pathTo_spelled hf ht ha
  have hv : VarName x := by
    rcases hx with hx | hx
    · exact hx.varName
    · exact hx.varName
  have := SpExpr.mk (.dot hv h1 h2) .nil
  rw [h3] at this
  simpa using this

theorem pathTo_first {f : Str} (hf : FieldName f) (fds : List Str) (t : Term) :
    (pathTo (f :: fds) t).isNumber = false ∧ (pathTo (f :: fds) t).isGlobal = false := by
  refine ⟨rfl, ?_⟩
  obtain ⟨c, cs, rfl, h1, -, -⟩ := hf
  have hc : c ≠ '@' := by
    rintro rfl
    rcases h1 with h1 | h1
    · exact absurd h1 (by simp [isAlphabetic, isAsciiAlpha])
    · exact absurd h1 (by decide)
  simp [pathTo, Term.isGlobal, hc]

/-- Following a path of own fields. -/
theorem dotOn_path {fs : FS} {load : Loader} {fds : List Str} (hf : ∀ f ∈ fds, FieldName f) (t : Term) {v w : Value}
    (h : Follows v fds w) (ps : List Pair) (k : Nat) (st : ESt) :
    ∃ ps' k', (fds = [] → ps' = ps) ∧ dotOn fs load (pathTo fds t) v ps k st = dotOn fs load t w ps' k' st := by
  induction h generalizing ps k with
  | stop => exact ⟨ps, k, fun _ => rfl, rfl⟩
  | @step o f fds v w h1 h2 ih =>
    obtain ⟨ps', k', -, h3⟩ := ih (fun g hg => hf g (by simp [hg])) o.pairs (k + 1)
    refine ⟨ps', k', by simp, ?_⟩
    rw [← h3]
    obtain ⟨e1, e2⟩ := pathTo_first (hf f (by simp)) fds t
    unfold dotOn
    simp only []
    rw [if_neg (by simp [e1]), if_neg (by simp [e2])]
    exact evalTerm_dot (by rw [evalName_first (hf f (by simp)) h1]; rfl)

/-- The evaluation of `x.f₁.….fₙ.s` at a place. -/
theorem path_at {fs : FS} {rt : Rt} {A : List (Str × Str)} {u : Str} {p : Obj} {st : ESt} (hc : Continues fs rt A u p st)
    {x : Str} (hx : FieldName x ∨ GlobalName x) {v w : Value} (hv : Denotes fs rt A u p x v) {fds : List Str}
    (hf : ∀ f ∈ fds, FieldName f) (hw : Follows v fds w) (t : Term) :
    ∃ ps' k', (fds = [] → ps' = p.pairs) ∧
      evalExpr fs none [] (theLoader fs) (.mk (.dot x (pathTo fds t)) []) p.pairs (1 + A.length) st =
        dotOn fs (theLoader fs) t w ps' k' st := by
  have hvn : VarName x := by
    rcases hx with hx | hx
    · exact hx.varName
    · exact hx.varName
  obtain ⟨st', he⟩ := hv.eval hc (spVar hvn)
  rw [evalExpr_term] at he
  simp only [evalTerm] at he
  cases evalName_state hx he
  obtain ⟨ps', k', h1, h2⟩ := dotOn_path (fs := fs) (load := theLoader fs) hf t hw p.pairs (1 + A.length) st
  refine ⟨ps', k', h1, ?_⟩
  rw [evalExpr_term, evalTerm_dot he, h2]

/-- From the evaluation to `Denotes`. -/
theorem denotes_of_eval {fs : FS} {rt : Rt} {A : List (Str × Str)} {u : Str} {p : Obj} {st st' : ESt}
    (hc : Continues fs rt A u p st) {x : Str} {v0 : Value} (hx : Denotes fs rt A u p x v0) {e : Str} {ex : Expr}
    (he : SpExpr ex e) {v : Value}
    (h : evalExpr fs none [] (theLoader fs) ex p.pairs (1 + A.length) st = .ok (v, st')) :
    Denotes fs rt A u p e v := by
  obtain ⟨y, -, hy, hn, -, -⟩ := hx
  obtain ⟨-, -, h3⟩ := field_at hc hy hn he
  obtain ⟨-, p', h4, h5, -⟩ := h3 v st' h
  exact ⟨y, p', hy, hn, h4, h5⟩

/-- From the evaluation to `Rejected`. -/
theorem rejected_of_eval {fs : FS} {rt : Rt} {A : List (Str × Str)} {u : Str} {p : Obj} {st : ESt}
    (hc : Continues fs rt A u p st) {e : Str} {ex : Expr} (he : SpExpr ex e) {k : SemKind} {K : Nat → Nat → Kind}
    (hk : ∀ kind, k.Reported kind → ∃ l c, kind = K l c)
    (h : evalExpr fs none [] (theLoader fs) ex p.pairs (1 + A.length) st = .error (.sem none k)) :
    Rejected fs rt A u p e K := by
  intro y rest hy hn hr
  obtain ⟨-, h2, -⟩ := field_at hc hy hn he
  obtain ⟨kind, h3, h4⟩ := (h2 _ rest hr h).fails
  obtain ⟨l, c, rfl⟩ := hk kind h3
  exact ⟨l, c, h4⟩

omit [Unicode] in
theorem Follows.snoc {v w : Value} {fds : List Str} {f : Str} (h : Follows v (fds ++ [f]) w) :
    ∃ o, Follows v fds (.obj o) ∧ FirstNamed o.pairs f w := by
  induction fds generalizing v with
  | nil =>
    cases h with
    | step h1 h2 => cases h2; exact ⟨_, .stop, h1⟩
  | cons g fds ih =>
    cases h with
    | step h1 h2 =>
      obtain ⟨o, h3, h4⟩ := ih h2
      exact ⟨o, .step h1 h3, h4⟩

omit [Unicode] in
theorem dotted_snoc (fds : List Str) (f : Str) : dotted (fds ++ [f]) = dotted fds ++ c!"." ++ f := by
  induction fds with
  | nil => simp [dotted]
  | cons g fds ih => simp only [List.cons_append, dotted, ih, List.append_assoc]

theorem FieldName.notGlobal {f : Str} (hf : FieldName f) : (Term.name f).isGlobal = false := (pathTo_first hf [] (.name f)).2

/-- C35: `x.f₁.….fₙ` denotes what following the own fields `f₁ … fₙ` from the value of `x` leads to. -/
theorem c35_path (fs : FS) (rt : Rt) (A : List (Str × Str)) (u : Str) (p : Obj) (h : ReadsAt fs rt A u p) (x : Str)
    (hx : FieldName x ∨ GlobalName x) (v : Value) (hv : Denotes fs rt A u p x v) (path : List Str)
    (hf : ∀ f ∈ path, FieldName f) (w : Value) (hw : Follows v path w) :
    Denotes fs rt A u p (x ++ dotted path) w := by
  rcases List.eq_nil_or_concat path with rfl | ⟨fds, f, rfl⟩
  · cases hw
    simpa [dotted] using hv
  · have hf1 : FieldName f := hf f (by simp)
    have hf2 : ∀ g ∈ fds, FieldName g := fun g hg => hf g (by simp [hg])
    obtain ⟨st, -, hc⟩ := at_place h
    rw [List.concat_eq_append] at hw ⊢
    obtain ⟨o, h1, h2⟩ := hw.snoc
    obtain ⟨ps', k', -, h3⟩ := path_at hc hx hv hf2 h1 (.name f)
    rw [dotted_snoc, ← List.append_assoc, ← List.append_assoc]
    refine denotes_of_eval (st' := st) hc hv (spPath hx hf2 (.name hf1.varName) rfl) ?_
    rw [h3]
    rw [dotOn_name hf1.notGlobal, evalName_first hf1 h2]
    rfl

/-- C35: a field that the object itself does not define is not found by a dot, even if its parent has it. -/
theorem c35_missing (fs : FS) (rt : Rt) (A : List (Str × Str)) (u : Str) (p : Obj) (h : ReadsAt fs rt A u p) (x : Str)
    (hx : FieldName x ∨ GlobalName x) (v : Value) (hv : Denotes fs rt A u p x v) (path : List Str)
    (hf : ∀ f ∈ path, FieldName f) (o : Obj) (hw : Follows v path (.obj o)) (f : Str) (hf1 : FieldName f)
    (hn : NotNamed o.pairs f) :
    Rejected fs rt A u p (x ++ dotted path ++ c!"." ++ f) (.variableNotFound f) := by
  obtain ⟨st, -, hc⟩ := at_place h
  obtain ⟨ps', k', -, h3⟩ := path_at hc hx hv hf hw (.name f)
  refine rejected_of_eval hc (spPath hx hf (.name hf1.varName) rfl) (k := .variableNotFound f) ?_ ?_
  · rintro _ ⟨⟩; exact ⟨_, _, rfl⟩
  · rw [h3]
    rw [dotOn_name hf1.notGlobal, evalName_none hf1 hn]
    rfl

/-- C35: a keyword after a dot is still the keyword. -/
theorem c35_keyword (fs : FS) (rt : Rt) (A : List (Str × Str)) (u : Str) (p : Obj) (h : ReadsAt fs rt A u p) (x : Str)
    (hx : FieldName x ∨ GlobalName x) (v : Value) (hv : Denotes fs rt A u p x v) (path : List Str)
    (hf : ∀ f ∈ path, FieldName f) (o : Obj) (hw : Follows v path (.obj o)) (word : Str)
    (hword : word ∈ [c!"null", c!"true", c!"false", c!"Obj", c!"Str", c!"Arr", c!"Tup"]) (k : Value)
    (hk : Denotes fs rt A u p word k) :
    Denotes fs rt A u p (x ++ dotted path ++ c!"." ++ word) k := by
  have hv1 : VarName word := by
    simp only [List.mem_cons, List.not_mem_nil, or_false] at hword
    rcases hword with rfl | rfl | rfl | rfl | rfl | rfl | rfl <;>
      exact ⟨_, _, rfl, .inl (.inl (by simp [isAlphabetic, isAsciiAlpha])), by
        intro d hd; simp at hd; rcases hd with rfl | rfl | rfl | rfl <;> exact .inl (by simp [isAlphabetic, isAsciiAlpha])⟩
  obtain ⟨st, -, hc⟩ := at_place h
  obtain ⟨st', he⟩ := hk.eval hc (spVar hv1)
  obtain ⟨ps', k', -, h3⟩ := path_at hc hx hv hf hw (.name word)
  refine denotes_of_eval (st' := st') hc hv (spPath hx hf (.name hv1) rfl) ?_
  rw [h3]
  rw [evalExpr_term] at he
  simp only [evalTerm] at he
  have hg : (Term.name word).isGlobal = false := by
    simp only [List.mem_cons, List.not_mem_nil, or_false] at hword
    rcases hword with rfl | rfl | rfl | rfl | rfl | rfl | rfl <;> decide
  rw [dotOn_name hg]
  have : evalName none o.pairs word = evalName none p.pairs word := by
    simp only [List.mem_cons, List.not_mem_nil, or_false] at hword
    rcases hword with rfl | rfl | rfl | rfl | rfl | rfl | rfl <;> simp [evalName]
  rw [this, he]

/-- C35: `x.s` on an array or tuple is the element whose number `s` denotes; `s` may be a
number, a variable or a path.  Other numbers and values that are no Int are rejected. -/
theorem c35_index (fs : FS) (rt : Rt) (A : List (Str × Str)) (u : Str) (p : Obj) (h : ReadsAt fs rt A u p) (x : Str)
    (hx : FieldName x ∨ GlobalName x) (v : Value) (hv : Denotes fs rt A u p x v) (vs : List Value) (arr : Bool)
    (hvs : if arr then ∃ i t, v = .arr i t vs else ∃ i ts, v = .tup i ts vs) (t : Term) (s : Str) (ht : SpTerm t s)
    (ha : t.afterDot = true) (w : Value) (hw : Denotes fs rt A u p s w) :
    (∀ (n : Nat) (e : Value), w = .int n → n < 2 ^ 64 → vs[n]? = some e →
      Denotes fs rt A u p (x ++ c!"." ++ s) e) ∧
    (∀ n : Nat, w = .int n → n < 2 ^ 64 → vs.length ≤ n → ∀ y rest, FieldName y → NotNamed p.pairs y → WellFormed rest →
      ∃ l c, fromStr fs (nest A (u ++ c!"\n" ++ y ++ c!":" ++ (x ++ c!"." ++ s) ++ c!"\n" ++ rest)) rt =
        .err ⟨none, .overError (((if arr then OverError.arrOutOfBounds n else .tupOutOfBounds n)).display ++
          c!" at line " ++ showNat l ++ c!", col " ++ showNat c)⟩) ∧
    (∀ i : Int, w = .int i → i < 0 ∨ 2 ^ 64 ≤ i → Rejected fs rt A u p (x ++ c!"." ++ s) (.invalidIndex i)) ∧
    ((∀ i, w ≠ .int i) → Rejected fs rt A u p (x ++ c!"." ++ s) (.expectedType .int w.getType)) := by
  obtain ⟨st, -, hc⟩ := at_place h
  have hsp : SpExpr (.mk t []) s := by
    have := SpExpr.mk ht .nil
    simpa using this
  obtain ⟨st', he⟩ := hw.eval hc hsp
  rw [evalExpr_term] at he
  obtain ⟨ps', k', hps, h3⟩ := path_at hc hx hv (fds := []) (by simp) .stop t
  cases hps rfl
  have hsp2 := spPath hx (fds := []) (by simp) ht ha
  have e0 : x ++ dotted [] ++ c!"." ++ s = x ++ c!"." ++ s := by simp [dotted]
  rw [e0] at hsp2
  simp only [pathTo] at hsp2 h3
  have hev : evalExpr fs none [] (theLoader fs) (.mk (.dot x t) []) p.pairs (1 + A.length) st =
      evalIndex none (if arr then .arrOutOfBounds else .tupOutOfBounds) vs w st' := by
    rw [h3]
    rw [evalTerm_afterDot ht ha p.pairs (1 + A.length) (k' + 1) st] at he
    cases arr with
    | true =>
      obtain ⟨i, ty, rfl⟩ := hvs
      simp only [dotOn]
      rw [EM.bind_ok he]
      rfl
    | false =>
      obtain ⟨i, ty, rfl⟩ := hvs
      simp only [dotOn]
      rw [EM.bind_ok he]
      rfl
  refine ⟨?_, ?_, ?_, ?_⟩
  · rintro n e rfl hn hen
    refine denotes_of_eval (st' := st') hc hv hsp2 ?_
    rw [hev]
    have : (0 : Int) ≤ n ∧ (n : Int) < 2 ^ 64 := ⟨by omega, by omega⟩
    simp only [evalIndex, if_pos this, Int.toNat_natCast, hen]
    rfl
  · rintro n rfl hn hle y rest hy hny hr
    obtain ⟨-, h2, -⟩ := field_at hc hy hny hsp2
    have : (0 : Int) ≤ n ∧ (n : Int) < 2 ^ 64 := ⟨by omega, by omega⟩
    have hnone : vs[n]? = none := List.getElem?_eq_none hle
    obtain ⟨kind, h3, h4⟩ := (h2 (.sem none (.api ((if arr then OverError.arrOutOfBounds else OverError.tupOutOfBounds) n))) rest hr (by
      rw [hev]
      simp only [evalIndex, if_pos this, Int.toNat_natCast, hnone]
      rfl)).fails
    cases h3
    rename_i l c
    refine ⟨l, c, h4.trans ?_⟩
    cases arr <;> rfl
  · rintro i rfl hi
    refine rejected_of_eval hc hsp2 (k := .invalidIndex i) ?_ ?_
    · rintro _ ⟨⟩; exact ⟨_, _, rfl⟩
    · rw [hev]
      have : ¬ ((0 : Int) ≤ i ∧ i < 2 ^ 64) := by omega
      simp only [evalIndex, if_neg this]
      rfl
  · intro hno
    refine rejected_of_eval hc hsp2 (k := .expectedType .int w.getType) ?_ ?_
    · rintro _ ⟨⟩; exact ⟨_, _, rfl⟩
    · rw [hev]
      cases w <;> first | rfl | exact (hno _ rfl).elim

/-- C35: a number after a path that leads to an array or tuple. -/
theorem c35_path_index (fs : FS) (rt : Rt) (A : List (Str × Str)) (u : Str) (p : Obj) (h : ReadsAt fs rt A u p) (x : Str)
    (hx : FieldName x ∨ GlobalName x) (v : Value) (hv : Denotes fs rt A u p x v) (path : List Str)
    (hf : ∀ f ∈ path, FieldName f) (w : Value) (hw : Follows v path w) (vs : List Value)
    (hvs : (∃ i t, w = .arr i t vs) ∨ ∃ i ts, w = .tup i ts vs) (n : Nat) (s : Str) (hs : IntLit n s) (hn : n < 2 ^ 64)
    (e : Value) (he : vs[n]? = some e) :
    Denotes fs rt A u p (x ++ dotted path ++ c!"." ++ s) e := by
  obtain ⟨st, -, hc⟩ := at_place h
  obtain ⟨ps', k', -, h3⟩ := path_at hc hx hv hf hw (.int n)
  refine denotes_of_eval (st' := st) hc hv (spPath hx hf (.int hs) rfl) ?_
  rw [h3]
  have : (0 : Int) ≤ n ∧ (n : Int) < 2 ^ 64 := ⟨by omega, by omega⟩
  have h4 : evalTerm fs none [] (theLoader fs) (.int n) ps' (k' + 1) st = .ok (.int n, st) := by
    simp only [evalTerm]; rfl
  rcases hvs with ⟨i, ty, rfl⟩ | ⟨i, ty, rfl⟩
  all_goals
    simp only [dotOn]
    rw [EM.bind_ok h4]
    simp only [evalIndex, if_pos this, Int.toNat_natCast, he]
    rfl

/-- C35: a dot on anything but an object, array or tuple is rejected. -/
theorem c35_other (fs : FS) (rt : Rt) (A : List (Str × Str)) (u : Str) (p : Obj) (h : ReadsAt fs rt A u p) (x : Str)
    (hx : FieldName x ∨ GlobalName x) (v : Value) (hv : Denotes fs rt A u p x v) (path : List Str)
    (hf : ∀ f ∈ path, FieldName f) (w : Value) (hw : Follows v path w) (h1 : ∀ o, w ≠ .obj o)
    (h2 : ∀ i t vs, w ≠ .arr i t vs) (h3 : ∀ i ts vs, w ≠ .tup i ts vs) (t : Term) (s : Str) (ht : SpTerm t s)
    (ha : t.afterDot = true) :
    Rejected fs rt A u p (x ++ dotted path ++ c!"." ++ s) (.invalidDot w.getType) := by
  obtain ⟨st, -, hc⟩ := at_place h
  obtain ⟨ps', k', -, h4⟩ := path_at hc hx hv hf hw t
  refine rejected_of_eval hc (spPath hx hf ht ha) (k := .invalidDot w.getType) ?_ ?_
  · rintro _ ⟨⟩; exact ⟨_, _, rfl⟩
  · rw [h4]
    cases w <;> first | rfl | exact (h1 _ rfl).elim | exact (h2 _ _ _ rfl).elim | exact (h3 _ _ _ rfl).elim

/-- C35: a global after a dot is rejected. -/
theorem c35_global_after_dot (fs : FS) (rt : Rt) (A : List (Str × Str)) (u : Str) (p : Obj) (h : ReadsAt fs rt A u p)
    (x : Str) (hx : FieldName x ∨ GlobalName x) (v : Value) (hv : Denotes fs rt A u p x v) (path : List Str)
    (hf : ∀ f ∈ path, FieldName f) (o : Obj) (hw : Follows v path (.obj o)) (g : Str) (hg : GlobalName g) :
    Rejected fs rt A u p (x ++ dotted path ++ c!"." ++ g) (.invalidValueChar '@') := by
  obtain ⟨st, -, hc⟩ := at_place h
  obtain ⟨ps', k', -, h4⟩ := path_at hc hx hv hf hw (.name g)
  refine rejected_of_eval hc (spPath hx hf (.name hg.varName) rfl) (k := .globalAfterDot) ?_ ?_
  · rintro _ ⟨⟩; exact ⟨_, _, rfl⟩
  · rw [h4]
    have : (Term.name g).isGlobal = true := by
      obtain ⟨c, cs, rfl, -⟩ := hg
      rfl
    unfold dotOn
    simp only []
    rw [if_neg (by simp [Term.isNumber]), if_pos this]
    rfl

end

/-! ## Examples -/

section
attribute [local instance] sampleUnicode

/-- A global object, an object `x` whose parent it is, a string and a number. -/
def sampleAccess : Str := c!"@p: {q: 1 r: 5}\nx: {^: @p r: [10 20] i: {k: 7}}\nt: \"s\"\nn: 1"

def sampleX : Obj :=
  .mk 3 [.mk c!"r" (.arr 1 .int [.int 10, .int 20]), .mk c!"i" (.obj (.mk 2 [.mk c!"k" (.int 7)] none))]
    (some (.mk 0 [.mk c!"q" (.int 1), .mk c!"r" (.int 5)] none))

def sampleAccessObj : Obj :=
  .mk 4 [.mk c!"x" (.obj sampleX), .mk c!"t" (.str c!"s"), .mk c!"n" (.int 1)] none

/-- The same definitions inside the object `a`. -/
theorem sampleAccess_reads : ReadsAt noFiles startRt [(c!"z: 1", c!"a")] sampleAccess sampleAccessObj := by
  obtain ⟨s1, h1⟩ : ∃ s, fromStr noFiles c!"z: 1" startRt = .ok (.mk 0 [.mk c!"z" (.int 1)] none) s :=
    Res.gives_ok (by decide +kernel)
  obtain ⟨s2, h2⟩ : ∃ s, fromStr noFiles sampleAccess startRt = .ok sampleAccessObj s := Res.gives_ok (by decide +kernel)
  obtain ⟨s3, h3⟩ : ∃ s, fromStr noFiles (nest [(c!"z: 1", c!"a")] sampleAccess) startRt =
      .ok (.mk 5 [.mk c!"z" (.int 1), .mk c!"a" (.obj sampleAccessObj)] none) s :=
    Res.gives_ok (by decide +kernel)
  refine ⟨?_, wellFormed_of_read h2, _, s3, h3, .inside (ps := [.mk c!"z" (.int 1)]) rfl .here⟩
  intro l hl
  rw [List.mem_singleton.1 hl]
  exact ⟨wellFormed_of_read h1, sampleFieldName 'a' (by decide)⟩

theorem sampleAccess_var (x : Char) (v : Value) (hx : isAlphabetic x = true) (h : FirstNamed sampleAccessObj.pairs [x] v) :
    Denotes noFiles startRt [(c!"z: 1", c!"a")] sampleAccess sampleAccessObj [x] v := by
  have hy := sampleFieldName 'y' (by decide)
  have hn : NotNamed sampleAccessObj.pairs c!"y" := by
    simp [NotNamed, sampleAccessObj, Obj.pairs, Pair.field]
  obtain ⟨st, -, hc⟩ := at_place sampleAccess_reads
  obtain ⟨-, -, h3⟩ := field_at hc hy hn (spVar (sampleFieldName x hx).varName)
  obtain ⟨-, p', h4, h5, -⟩ := h3 v st (by
    rw [evalExpr_term]
    simp only [evalTerm, evalName_first (sampleFieldName x hx) h]
    rfl)
  exact ⟨_, p', hy, hn, h4, h5⟩

attribute [local irreducible] ReadsAt Denotes Rejected in
/-- `x.i.k` is 7; `x.q` is not found although `x` inherits `q`; `x.i.null` is null; `x.r.1` is 20, `t.n` is rejected. -/
example :
    Denotes noFiles startRt [(c!"z: 1", c!"a")] sampleAccess sampleAccessObj (c!"x" ++ dotted [c!"i", c!"k"]) (.int 7) ∧
    (sampleX.get c!"q" = some (.int 1) ∧
    Rejected noFiles startRt [(c!"z: 1", c!"a")] sampleAccess sampleAccessObj (c!"x" ++ dotted [] ++ c!"." ++ c!"q")
      (.variableNotFound c!"q")) ∧
    Denotes noFiles startRt [(c!"z: 1", c!"a")] sampleAccess sampleAccessObj (c!"x" ++ dotted [c!"r"] ++ c!"." ++ c!"1")
      (.int 20) ∧
    Rejected noFiles startRt [(c!"z: 1", c!"a")] sampleAccess sampleAccessObj (c!"t" ++ dotted [] ++ c!"." ++ c!"n")
      (.invalidDot .str) := by
  have hx := sampleFieldName 'x' (by decide)
  have vx := sampleAccess_var 'x' (.obj sampleX) (by decide) ⟨[], _, rfl, by simp⟩
  have vt := sampleAccess_var 't' (.str c!"s") (by decide) ⟨[_], _, rfl, by simp [Pair.field]⟩
  refine ⟨c35_path _ _ _ _ _ sampleAccess_reads _ (.inl hx) _ vx _ ?_ _
      (.step ⟨[_], _, rfl, by simp [Pair.field]⟩ (.step ⟨[], _, rfl, by simp⟩ .stop)),
    ⟨rfl, c35_missing _ _ _ _ _ sampleAccess_reads _ (.inl hx) _ vx [] (by simp) _ .stop _
      (sampleFieldName 'q' (by decide)) ?_⟩,
    c35_path_index _ _ _ _ _ sampleAccess_reads _ (.inl hx) _ vx [c!"r"] ?_ _ (.step ⟨[], _, rfl, by simp⟩ .stop) _
      (.inl ⟨_, _, rfl⟩) 1 _ (sampleIntLit (by decide) (by decide)) (by decide) _ rfl,
    c35_other _ _ _ _ _ sampleAccess_reads _ (.inl (sampleFieldName 't' (by decide))) _ vt [] (by simp) _ .stop
      (by simp) (by simp) (by simp) _ _ (.name (sampleFieldName 'n' (by decide)).varName) rfl⟩
  · intro f hf
    simp only [List.mem_cons, List.not_mem_nil, or_false] at hf
    rcases hf with rfl | rfl
    · exact sampleFieldName 'i' (by decide)
    · exact sampleFieldName 'k' (by decide)
  · simp [NotNamed, sampleX, Obj.pairs, Pair.field]
  · intro f hf
    rw [List.mem_singleton.1 hf]
    exact sampleFieldName 'r' (by decide)

attribute [local irreducible] ReadsAt Denotes Rejected in
/-- `x` becomes the parent; a second parent is rejected. -/
example : ∃ p', ReadsAt noFiles startRt [(c!"z: 1", c!"a")] (sampleAccess ++ c!"\n" ++ c!"^" ++ c!":" ++ c!"x") p' ∧
    p'.get c!"n" = some (.int 1) ∧ p'.get c!"q" = some (.int 1) ∧
    FailsWith noFiles startRt (nest [(c!"z: 1", c!"a")] ((sampleAccess ++ c!"\n" ++ c!"^" ++ c!":" ++ c!"x") ++ c!"\n" ++
      c!"^" ++ c!":" ++ c!"x" ++ c!"\n" ++ [])) (.duplicateField c!"^") := by
  have hx := sampleFieldName 'x' (by decide)
  have vx := sampleAccess_var 'x' (.obj sampleX) (by decide) ⟨[], _, rfl, by simp⟩
  obtain ⟨p', h1, h2, h3, h4, h5⟩ := c34_parent _ _ _ _ _ sampleAccess_reads rfl _ _ (spVar hx.varName) _ vx
  refine ⟨p', h1, h4 _ _ ⟨[_, _], _, rfl, by simp [Pair.field]⟩, (h5 _ ?_).trans rfl,
    c34_twice _ _ _ _ _ _ h1 h3 _ _ (spVar hx.varName) [] ⟨[], .nil (.gap .nil)⟩⟩
  simp [NotNamed, sampleAccessObj, Obj.pairs, Pair.field]

end

end Over

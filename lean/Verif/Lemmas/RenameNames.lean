import Verif.Spec.RenameNames
import Verif.Spec.Eval

/-! # Evaluation commutes with renaming -/

namespace Over

/-! ## Values -/

theorem Value.renameFieldsL_eq (f : Str → Str) : ∀ vs : List Value, Value.renameFieldsL f vs = vs.map (Value.renameFields f)
  | [] => rfl
  | v :: vs => by simp [Value.renameFieldsL, Value.renameFieldsL_eq f vs]

/-- One field with its new name. -/
def Pair.renameFields (f : Str → Str) : Pair → Pair
  | .mk n v => .mk (f n) (v.renameFields f)

theorem Pair.renameFieldsL_eq (f : Str → Str) : ∀ ps : List Pair, Pair.renameFieldsL f ps = ps.map (Pair.renameFields f)
  | [] => rfl
  | .mk n v :: ps => by simp [Pair.renameFieldsL, Pair.renameFields, Pair.renameFieldsL_eq f ps]

theorem Value.renameFields_getType (f : Str → Str) (v : Value) : (v.renameFields f).getType = v.getType := by
  cases v <;> rfl

theorem Pair.renameFieldsL_append (f : Str → Str) (a b : List Pair) :
    Pair.renameFieldsL f (a ++ b) = Pair.renameFieldsL f a ++ Pair.renameFieldsL f b := by
  simp [Pair.renameFieldsL_eq]

theorem Pair.find_rename {f : Str → Str} (hf : ∀ x y, f x = f y → x = y) (ps : List Pair) (x : Str) :
    (Pair.renameFieldsL f ps).find? (fun p => p.field == f x) = (ps.find? (fun p => p.field == x)).map (Pair.renameFields f) := by
  induction ps with
  | nil => rfl
  | cons p ps ih =>
    obtain ⟨n, v⟩ := p
    by_cases h : n = x
    · simp [h, Pair.renameFields, Pair.renameFieldsL, Pair.field]
    · have h' : (f n == f x) = false := by simpa using fun e => h (hf _ _ e)
      have h'' : (n == x) = false := by simpa using h
      rw [Pair.renameFieldsL, List.find?_cons_of_neg (by simpa [Pair.field] using h'), List.find?_cons_of_neg (by simpa [Pair.field] using h''), ih]

theorem Pair.mem_rename {f : Str → Str} (hf : ∀ x y, f x = f y → x = y) (ps : List Pair) (x : Str) :
    f x ∈ (Pair.renameFieldsL f ps).map Pair.field ↔ x ∈ ps.map Pair.field := by
  induction ps with
  | nil => simp [Pair.renameFieldsL]
  | cons p ps ih =>
    obtain ⟨n, v⟩ := p
    simp only [Pair.renameFieldsL, List.map_cons, Pair.field, List.mem_cons, ih]
    constructor
    · rintro (h | h)
      · exact .inl (hf _ _ h)
      · exact .inr h
    · rintro (h | h)
      · exact .inl (by rw [h])
      · exact .inr h

mutual
theorem Value.renameFields_id : ∀ v : Value, v.renameFields id = v
  | .null => rfl
  | .bool _ => rfl
  | .int _ => rfl
  | .frac _ => rfl
  | .str _ => rfl
  | .arr i t vs => by rw [Value.renameFields, Value.renameFieldsL_id vs]
  | .tup i t vs => by rw [Value.renameFields, Value.renameFieldsL_id vs]
  | .obj o => by rw [Value.renameFields, Obj.renameFields_id o]
termination_by structural v => v
theorem Value.renameFieldsL_id : ∀ vs : List Value, Value.renameFieldsL id vs = vs
  | [] => rfl
  | v :: vs => by rw [Value.renameFieldsL, Value.renameFields_id v, Value.renameFieldsL_id vs]
termination_by structural v => v
theorem Pair.renameFieldsL_id : ∀ ps : List Pair, Pair.renameFieldsL id ps = ps
  | [] => rfl
  | .mk n v :: ps => by rw [Pair.renameFieldsL, Value.renameFields_id v, Pair.renameFieldsL_id ps, id]
termination_by structural v => v
theorem Obj.renameFieldsP_id : ∀ o : Option Obj, Obj.renameFieldsP id o = o
  | none => rfl
  | some o => by rw [Obj.renameFieldsP, Obj.renameFields_id o]
termination_by structural v => v
theorem Obj.renameFields_id : ∀ o : Obj, o.renameFields id = o
  | .mk i ps par => by rw [Obj.renameFields, Pair.renameFieldsL_id ps, Obj.renameFieldsP_id par]
termination_by structural v => v
end

/-! ## States, errors, actions -/

/-- The state with the new names. -/
def ESt.rename (r : Renaming) (st : ESt) : ESt :=
  ⟨st.globals.map (fun x => (r.global x.1, x.2.renameFields r.field)),
    st.cache.map (fun x => (x.1, x.2.renameFields r.field)), st.rt⟩

/-- The results correspond: values by `f`, errors are the same up to the names. -/
def RenRes (r : Renaming) {α β : Type} (f : α → β) : Except SemErr (α × ESt) → Except SemErr (β × ESt) → Prop
  | .ok (a, st), x => x = .ok (f a, st.rename r)
  | .error e, x => x = .error e ∨ x = .error (e.rename r)

/-- `m'` does, with the new names, what `m` does; results correspond by `f`. -/
def Renames (r : Renaming) {α β : Type} (m : EM α) (m' : EM β) (f : α → β) : Prop :=
  ∀ st, RenRes r f (m st) (m' (st.rename r))

section
variable {r : Renaming} {file : Option Str} {α α' β β' : Type}

theorem Renames.bind {m : EM α} {m' : EM α'} {f : α → α'} {k : α → EM β} {k' : α' → EM β'} {g : β → β'} (h : Renames r m m' f)
    (hk : ∀ a, Renames r (k a) (k' (f a)) g) : Renames r (m >>= k) (m' >>= k') g := by
  intro st
  have h := h st
  show RenRes r g (EM.bind m k st) (EM.bind m' k' (st.rename r))
  unfold EM.bind
  cases e : m st with
  | error e' =>
    rw [e] at h
    rcases h with h | h
    · rw [h]; exact .inl rfl
    · rw [h]; exact .inr rfl
  | ok x =>
    obtain ⟨a, st'⟩ := x
    rw [e] at h
    rw [show m' (st.rename r) = _ from h]
    exact hk a st'

theorem Renames.pure (f : α → β) (a : α) : Renames r (pure a) (pure (f a)) f := fun _ => rfl

theorem Renames.fail (f : α → β) (k : SemKind) : Renames r (EM.fail file k) (EM.fail file (k.rename r)) f := fun _ => .inr rfl

theorem Renames.fail' (f : α → β) (k : SemKind) : Renames r (EM.fail file k) (EM.fail file k) f := fun _ => .inl rfl

theorem Renames.fresh : Renames r EM.fresh EM.fresh id := fun _ => rfl

theorem Renames.keywordId (k : IncKind) : Renames r (EM.keywordId k) (EM.keywordId k) id := by
  intro st
  cases k <;> simp only [EM.keywordId, ESt.rename]
  · cases st.rt.objS <;> rfl
  · cases st.rt.strS <;> rfl
  · cases st.rt.arrS <;> rfl
  · cases st.rt.tupS <;> rfl

theorem Renames.ite {c : Prop} {_ : Decidable c} {a b : EM α} {a' b' : EM β} {f : α → β} (h1 : Renames r a a' f) (h2 : Renames r b b' f) :
    Renames r (if c then a else b) (if c then a' else b') f := by
  by_cases h : c
  · rw [if_pos h, if_pos h]; exact h1
  · rw [if_neg h, if_neg h]; exact h2

theorem Renames.depthCheck (d : Nat) : Renames r (depthCheck file d) (depthCheck file d) id := by
  unfold Over.depthCheck
  split
  · exact .fail' _ _
  · exact .pure id ()

end

/-! ## Maps -/

theorem StrMap.get_rename {f : Str → Str} (hf : ∀ x y, f x = f y → x = y) (h : Value → Value) (m : StrMap Value) (x : Str) :
    StrMap.get (m.map (fun e => (f e.1, h e.2))) (f x) = (StrMap.get m x).map h := by
  unfold StrMap.get
  rw [List.find?_map]
  have : ((fun e : Str × Value => e.1 == f x) ∘ fun e : Str × Value => (f e.1, h e.2)) = fun e : Str × Value => e.1 == x := by
    funext e
    simp only [Function.comp_apply]
    by_cases hk : e.1 = x
    · simp [hk]
    · have h1 : (e.1 == x) = false := by simpa using hk
      have h2 : (f e.1 == f x) = false := by simpa using fun e => hk (hf _ _ e)
      rw [h1, h2]
  rw [this]
  cases List.find? (fun e => e.1 == x) m <;> rfl

/-! ## Operators and names -/

section
variable {r : Renaming} {file : Option Str}

/-- Abbreviation: the values with new names. -/
abbrev Renaming.v (r : Renaming) : Value → Value := Value.renameFields r.field

theorem binSem_rename (op : BinOp) (a b : Value) : binSem op (r.v a) (r.v b) = match binSem op a b with
    | .val v => .val (r.v v)
    | .newArr t vs => .newArr t (vs.map r.v)
    | .bad t1 t2 => .bad t1 t2
    | .divisionByZero => .divisionByZero := by
  cases op <;> cases a <;> cases b <;> simp only [Renaming.v, Value.renameFields, binSem, promotedTypes, Value.getType, divSem]
  case plus.arr.arr i s xs j t ys =>
    cases Ty.mostSpecific s t with
    | none => rfl
    | some u => simp [Value.renameFieldsL_eq]
  all_goals (try split) <;> rfl

theorem applyBin_rename (op : BinOp) (a b : Value) : Renames r (applyBin file op a b) (applyBin file op (r.v a) (r.v b)) r.v := by
  unfold applyBin
  rw [binSem_rename]
  cases binSem op a b with
  | val v => exact .pure r.v v
  | newArr t vs => exact .bind .fresh (fun i => by
      have := Renames.pure (r := r) r.v (.arr i t vs)
      simpa [Renaming.v, Value.renameFields, Value.renameFieldsL_eq] using this)
  | bad t1 t2 => exact .fail' _ _
  | divisionByZero => exact .fail' _ _

theorem applyUn_rename (op : UnOp) (a : Value) : Renames r (applyUn file op a) (applyUn file op (r.v a)) r.v := by
  cases op <;> cases a <;> simp only [Renaming.v, Value.renameFields, applyUn, Value.getType] <;>
    first | exact .fail' _ _ | exact Renames.pure r.v _

theorem sumLeft_rename : ∀ (l : List (BinOp × Value)) (v : Value),
    Renames r (sumLeft file v l) (sumLeft file (r.v v) (l.map (fun x => (x.1, r.v x.2)))) r.v
  | [], v => .pure r.v v
  | (op, w) :: l, v => .bind (applyBin_rename op v w) (fun u => sumLeft_rename l u)

theorem evalName_rename (ps : List Pair) (x : Str) :
    Renames r (evalName file ps x) (evalName file (Pair.renameFieldsL r.field ps) (r.name x)) r.v := by
  by_cases hx : x.head? = some '@'
  · have hn : r.name x = r.global x := by simp [Renaming.name, hx]
    have hh := r.global_has_at x hx
    rw [hn]
    by_cases ha : x = c!"@"
    · subst ha
      rw [r.global_at]
      exact .fail' _ _
    · have ha' : r.global x ≠ c!"@" := fun e => ha (r.global_injective _ _ (e.trans r.global_at.symm))
      have ne : ∀ {y w : Str}, y.head? = some '@' → w.head? ≠ some '@' → y ≠ w := by rintro y w h1 h2 rfl; exact h2 h1
      have key : ∀ {y : Str} {ps : List Pair}, y.head? = some '@' → y ≠ c!"@" → evalName file ps y = evalGlobal file y := by
        intro y ps h1 h2
        simp only [evalName, ne h1 (w := c!"null") (by decide), ne h1 (w := c!"true") (by decide),
          ne h1 (w := c!"false") (by decide), ne h1 (w := c!"Obj") (by decide), ne h1 (w := c!"Str") (by decide),
          ne h1 (w := c!"Arr") (by decide), ne h1 (w := c!"Tup") (by decide), h1, h2, if_true, if_false]
      rw [key hx ha, key hh ha']
      intro st
      unfold evalGlobal
      have := StrMap.get_rename r.global_injective r.v st.globals x
      simp only [ESt.rename]
      rw [this]
      cases StrMap.get st.globals x with
      | none => exact .inr rfl
      | some v => exact rfl
  · have hn : r.name x = r.field x := by simp [Renaming.name, hx]
    have hh := r.field_no_at x hx
    rw [hn]
    have fixed : ∀ w ∈ c!"^" :: reservedWords, (r.field x = w ↔ x = w) := by
      intro w hw
      constructor
      · intro e; exact r.field_injective _ _ (e.trans (r.field_reserved w hw).symm)
      · rintro rfl; exact r.field_reserved _ hw
    have h1 := fixed c!"null" (by decide)
    have h2 := fixed c!"true" (by decide)
    have h3 := fixed c!"false" (by decide)
    have h4 := fixed c!"Obj" (by decide)
    have h5 := fixed c!"Str" (by decide)
    have h6 := fixed c!"Arr" (by decide)
    have h7 := fixed c!"Tup" (by decide)
    have h8 := fixed c!"@" (by decide)
    unfold evalName
    simp only [h1, h2, h3, h4, h5, h6, h7, h8, hx, hh]
    split; · exact Renames.pure r.v _
    split; · exact Renames.pure r.v _
    split; · exact Renames.pure r.v _
    split; · exact .bind (.keywordId _) (fun i => Renames.pure r.v _)
    split; · exact .bind (.keywordId _) (fun i => Renames.pure r.v _)
    split; · exact .bind (.keywordId _) (fun i => Renames.pure r.v _)
    split; · exact .bind (.keywordId _) (fun i => Renames.pure r.v _)
    split; · exact .fail' _ _
    rw [if_neg (by simp), if_neg (by simp), Pair.find_rename r.field_injective]
    cases ps.find? (fun p => p.field == x) with
    | none => exact .fail _ (.variableNotFound x)
    | some p => obtain ⟨n, v⟩ := p; exact Renames.pure r.v v

theorem evalIndex_rename (oob : Nat → OverError) (vs : List Value) (i : Value) :
    Renames r (evalIndex file oob vs i) (evalIndex file oob (Value.renameFieldsL r.field vs) (r.v i)) r.v := by
  cases i <;> simp only [Renaming.v, Value.renameFields, evalIndex, Value.getType] <;> try exact .fail' _ _
  rename_i i
  rw [Value.renameFieldsL_eq]
  split
  · rw [List.getElem?_map]
    cases vs[i.toNat]? with
    | none => exact .fail' _ _
    | some v => exact .pure r.v v
  · exact .fail' _ _

theorem evalKeyword_rename (v : Value) : Renames r (evalKeyword file v) (evalKeyword file (r.v v)) id := by
  cases v <;> simp only [Renaming.v, Value.renameFields, evalKeyword, Value.getType] <;>
    try first | exact .fail' _ _ | exact Renames.pure id _
  rename_i o
  have hid : (o.renameFields r.field).id = o.id := by cases o; rfl
  rw [hid]
  have ite : ∀ {c : Prop} [Decidable c] {a a' b b' : EM (Option IncKind)}, Renames r a a' id → Renames r b b' id →
      Renames r (if c then a else b) (if c then a' else b') id := by
    intro c _ a a' b b' h1 h2
    split
    · exact h1
    · exact h2
  refine .bind (.keywordId _) (fun i => ite (.pure id _) (.bind (.keywordId _) (fun i => ite (.pure id _)
    (.bind (.keywordId _) (fun i => ite (.pure id _) (.bind (.keywordId _) (fun i => ite (.pure id _) (.fail' _ _))))))))

/-- Reading files commutes with the renaming. -/
def LoadRenames (r : Renaming) (load : Loader) : Prop := ∀ stack kind p, Renames r (load stack kind p) (load stack kind p) r.v

theorem evalInclude_rename {fs : FS} {stack : List Str} {load : Loader} (hl : LoadRenames r load) (kind : IncKind) (p : Str) :
    Renames r (evalInclude fs file stack load kind p) (evalInclude fs file stack load kind p) r.v := by
  unfold evalInclude
  extract_lets path
  clear_value path
  cases fs.resolve path with
  | none => exact .fail' _ _
  | some full =>
    dsimp only
    refine .ite (.fail' _ _) (.ite (.fail' _ _) ?_)
    intro st
    have hc := StrMap.get_rename (f := id) (fun _ _ h => h) r.v st.cache full
    have hc' : StrMap.get (st.rename r).cache full = (StrMap.get st.cache full).map r.v := hc
    beta_reduce
    rw [hc']
    cases StrMap.get st.cache full with
    | some v => exact rfl
    | none =>
      have := hl (full :: stack) kind path st
      simp only [Option.map_none]
      cases e : load (full :: stack) kind path st with
      | error e' =>
        rw [e] at this
        rcases this with h | h
        · rw [h]; exact .inl rfl
        · rw [h]; exact .inr rfl
      | ok x =>
        rw [e] at this
        rw [show load (full :: stack) kind path (st.rename r) = _ from this]
        rfl

theorem checkNew_rename (ps : List Pair) (par : Option Obj) (tg : Target) :
    Renames r (checkNew file ps par tg) (checkNew file (Pair.renameFieldsL r.field ps) (Obj.renameFieldsP r.field par) (tg.rename r)) id := by
  cases tg with
  | field f =>
    simp only [Target.rename, checkNew, Pair.mem_rename r.field_injective]
    split
    · exact .fail _ (.duplicateField f)
    · exact .pure id ()
  | parent =>
    have : (Obj.renameFieldsP r.field par).isSome = par.isSome := by cases par <;> rfl
    simp only [Target.rename, checkNew, this]
    split
    · exact .fail' _ _
    · exact .pure id ()
  | global g =>
    intro st
    have := StrMap.get_rename r.global_injective r.v st.globals g
    simp only [Target.rename, checkNew, ESt.rename]
    rw [this]
    cases StrMap.get st.globals g with
    | none => exact rfl
    | some v => exact .inr rfl

theorem setGlobal_rename (g : Str) (v : Value) : Renames r (setGlobal g v) (setGlobal (r.global g) (r.v v)) id := fun _ => rfl

theorem Term.rename_isNumber (t : Term) : (t.rename r).isNumber = t.isNumber := by cases t <;> rfl

theorem Term.rename_isGlobal (t : Term) : (t.rename r).isGlobal = t.isGlobal := by
  have : ∀ x : Str, ((r.name x).head? == some '@') = (x.head? == some '@') := by
    intro x
    unfold Renaming.name
    split
    · next h => rw [r.global_has_at x h, h]
    · next h =>
      have h1 := r.field_no_at x h
      have e1 : ((r.field x).head? == some '@') = false := by simpa using h1
      have e2 : (x.head? == some '@') = false := by simpa using h
      rw [e1, e2]
  cases t <;> simp only [Term.rename, Term.isGlobal, this]

end

/-! ## Trees -/

section
variable {r : Renaming} {file : Option Str} {fs : FS} {stack : List Str} {load : Loader}

/-- Nothing is included, or including commutes with the renaming. -/
abbrev IncOk (r : Renaming) (load : Loader) (free : Bool) : Prop := free = true ∨ LoadRenames r load

mutual
theorem evalTerm_rename : ∀ (t : Term), IncOk r load t.includeFree → ∀ (ps : List Pair) (d : Nat),
    Renames r (evalTerm fs file stack load t ps d) (evalTerm fs file stack load (t.rename r) (Pair.renameFieldsL r.field ps) d) r.v
  | .str s, _, ps, d => .pure r.v _
  | .int s, _, ps, d => .pure r.v _
  | .frac s, _, ps, d => .pure r.v _
  | .name x, _, ps, d => evalName_rename ps x
  | .dot x t, h, ps, d => by
    simp only [evalTerm, Term.rename]
    refine .bind (evalName_rename ps x) (fun v => ?_)
    have ht := evalTerm_rename t (by simpa only [Term.includeFree] using h)
    cases v <;> simp only [Renaming.v, Value.renameFields, Value.getType] <;> try exact .fail' _ _
    · exact .bind (ht ps (d + 1)) (fun i => evalIndex_rename _ _ i)
    · exact .bind (ht ps (d + 1)) (fun i => evalIndex_rename _ _ i)
    · rename_i o
      rw [Term.rename_isNumber, Term.rename_isGlobal]
      split
      · exact .fail' _ _
      split
      · exact .fail' _ _
      · have := ht o.pairs (d + 1)
        cases o
        exact this
  | .neg t, h, ps, d => by
    simp only [evalTerm, Term.rename]
    exact .bind (evalTerm_rename t (by simpa only [Term.includeFree] using h) ps (d + 1)) (fun v => applyUn_rename _ v)
  | .pos t, h, ps, d => by
    simp only [evalTerm, Term.rename]
    exact .bind (evalTerm_rename t (by simpa only [Term.includeFree] using h) ps (d + 1)) (fun v => applyUn_rename _ v)
  | .arr es, h, ps, d => by
    simp only [evalTerm, Term.rename]
    refine .bind (.depthCheck _) (fun _ => .bind (evalElems_rename es (by simpa only [Term.includeFree] using h) ps (d + 1) .any)
      (fun x => .bind .fresh (fun i => Renames.pure r.v _)))
  | .tup es, h, ps, d => by
    simp only [evalTerm, Term.rename]
    refine .bind (.depthCheck _) (fun _ => .bind (evalItems_rename es (by simpa only [Term.includeFree] using h) ps (d + 1))
      (fun vs => .bind .fresh (fun i => ?_)))
    have := Renames.pure (r := r) r.v (.tup i (vs.map Value.getType) vs)
    have ht : (Value.renameFieldsL r.field vs).map Value.getType = vs.map Value.getType := by
      rw [Value.renameFieldsL_eq, List.map_map]
      exact List.map_congr_left (fun v _ => v.renameFields_getType r.field)
    rw [ht]
    exact this
  | .obj fds, h, ps, d => by
    simp only [evalTerm, Term.rename]
    exact .bind (.depthCheck _) (fun _ => .bind (evalFields_rename fds (by simpa only [Term.includeFree] using h) (d + 1) [] none)
      (fun x => .bind .fresh (fun i => Renames.pure r.v _)))
  | .incl e, h, ps, d => by
    have hl : LoadRenames r load := h.resolve_left (by simp [Term.includeFree])
    simp only [evalTerm, Term.rename]
    refine .bind (.depthCheck _) (fun _ => .bind (evalExpr_rename e (.inr hl) ps (d + 1)) (fun v =>
      .bind (evalKeyword_rename v) (fun k => ?_)))
    cases k with
    | none => cases v <;> simp only [Renaming.v, Value.renameFields, id] <;> first | exact .fail' _ _ | exact evalInclude_rename hl _ _
    | some k => exact .fail' _ _
  | .inclAs k e, h, ps, d => by
    have hl : LoadRenames r load := h.resolve_left (by simp [Term.includeFree])
    simp only [evalTerm, Term.rename]
    refine .bind (.depthCheck _) (fun _ => .bind (evalExpr_rename k (.inr hl) ps (d + 1)) (fun v =>
      .bind (evalKeyword_rename v) (fun k => ?_)))
    cases k with
    | none => exact .fail' _ _
    | some k =>
      refine .bind (evalExpr_rename e (.inr hl) ps (d + 1)) (fun w => ?_)
      cases w <;> simp only [Renaming.v, Value.renameFields, Value.getType] <;>
        first | exact .fail' _ _ | exact evalInclude_rename hl _ _
termination_by structural t => t
theorem evalExpr_rename : ∀ (e : Expr), IncOk r load e.includeFree → ∀ (ps : List Pair) (d : Nat),
    Renames r (evalExpr fs file stack load e ps d) (evalExpr fs file stack load (e.rename r) (Pair.renameFieldsL r.field ps) d) r.v
  | .mk t ops, h, ps, d => by
    simp only [evalExpr, Expr.rename]
    refine .bind (evalTerm_rename t (h.imp_left (fun h => by simp only [Expr.includeFree, Bool.and_eq_true] at h; exact h.1)) ps d)
      (fun v => .bind (evalChain_rename ops (h.imp_left (fun h => by simp only [Expr.includeFree, Bool.and_eq_true] at h; exact h.2)) v ps d)
        (fun x => sumLeft_rename x.2 x.1))
termination_by structural t => t
theorem evalChain_rename : ∀ (ops : List OpTerm), IncOk r load (OpTerm.includeFreeL ops) → ∀ (v : Value) (ps : List Pair) (d : Nat),
    Renames r (evalChain fs file stack load ops v ps d)
      (evalChain fs file stack load (OpTerm.renameL r ops) (r.v v) (Pair.renameFieldsL r.field ps) d)
      (fun x => (r.v x.1, x.2.map (fun y => (y.1, r.v y.2))))
  | [], _, v, ps, d => Renames.pure (fun x : Value × List (BinOp × Value) => (r.v x.1, x.2.map (fun y => (y.1, r.v y.2)))) _
  | .mk op t :: ops, h, v, ps, d => by
    have h1 : IncOk r load t.includeFree := h.imp_left (fun h => by simp only [OpTerm.includeFreeL, Bool.and_eq_true] at h; exact h.1)
    have h2 : IncOk r load (OpTerm.includeFreeL ops) :=
      h.imp_left (fun h => by simp only [OpTerm.includeFreeL, Bool.and_eq_true] at h; exact h.2)
    simp only [evalChain, OpTerm.renameL]
    refine .bind (evalTerm_rename t h1 ps d) (fun w => ?_)
    split
    · exact .bind (applyBin_rename op v w) (fun u => evalChain_rename ops h2 u ps d)
    · exact .bind (evalChain_rename ops h2 w ps d)
        (fun x => Renames.pure (fun x : Value × List (BinOp × Value) => (r.v x.1, x.2.map (fun y => (y.1, r.v y.2)))) _)
termination_by structural t => t
theorem evalElems_rename : ∀ (es : List Expr), IncOk r load (Expr.includeFreeL es) → ∀ (ps : List Pair) (d : Nat) (t : Ty),
    Renames r (evalElems fs file stack load es ps d t)
      (evalElems fs file stack load (Expr.renameL r es) (Pair.renameFieldsL r.field ps) d t)
      (fun x => (Value.renameFieldsL r.field x.1, x.2))
  | [], _, ps, d, t => Renames.pure (fun x : List Value × Ty => (Value.renameFieldsL r.field x.1, x.2)) _
  | e :: es, h, ps, d, t => by
    have h1 : IncOk r load e.includeFree := h.imp_left (fun h => by simp only [Expr.includeFreeL, Bool.and_eq_true] at h; exact h.1)
    have h2 : IncOk r load (Expr.includeFreeL es) :=
      h.imp_left (fun h => by simp only [Expr.includeFreeL, Bool.and_eq_true] at h; exact h.2)
    simp only [evalElems, Expr.renameL]
    refine .bind (evalExpr_rename e h1 ps d) (fun v => ?_)
    rw [Value.renameFields_getType]
    cases Ty.mostSpecific t v.getType with
    | none => exact .fail' _ _
    | some u =>
      exact .bind (evalElems_rename es h2 ps d u.1)
        (fun x => Renames.pure (fun x : List Value × Ty => (Value.renameFieldsL r.field x.1, x.2)) _)
termination_by structural t => t
theorem evalItems_rename : ∀ (es : List Expr), IncOk r load (Expr.includeFreeL es) → ∀ (ps : List Pair) (d : Nat),
    Renames r (evalItems fs file stack load es ps d)
      (evalItems fs file stack load (Expr.renameL r es) (Pair.renameFieldsL r.field ps) d) (Value.renameFieldsL r.field)
  | [], _, ps, d => Renames.pure (Value.renameFieldsL r.field) _
  | e :: es, h, ps, d => by
    have h1 : IncOk r load e.includeFree := h.imp_left (fun h => by simp only [Expr.includeFreeL, Bool.and_eq_true] at h; exact h.1)
    have h2 : IncOk r load (Expr.includeFreeL es) :=
      h.imp_left (fun h => by simp only [Expr.includeFreeL, Bool.and_eq_true] at h; exact h.2)
    simp only [evalItems, Expr.renameL]
    exact .bind (evalExpr_rename e h1 ps d) (fun v => .bind (evalItems_rename es h2 ps d)
      (fun x => Renames.pure (Value.renameFieldsL r.field) _))
termination_by structural t => t
theorem evalFields_rename : ∀ (fds : List Field), IncOk r load (Field.includeFreeL fds) → ∀ (d : Nat) (ps : List Pair) (par : Option Obj),
    Renames r (evalFields fs file stack load fds d ps par)
      (evalFields fs file stack load (Field.renameL r fds) d (Pair.renameFieldsL r.field ps) (Obj.renameFieldsP r.field par))
      (fun x => (Pair.renameFieldsL r.field x.1, Obj.renameFieldsP r.field x.2))
  | [], _, d, ps, par => Renames.pure (fun x : List Pair × Option Obj => (Pair.renameFieldsL r.field x.1, Obj.renameFieldsP r.field x.2)) _
  | .mk tg e :: fds, h, d, ps, par => by
    have h1 : IncOk r load e.includeFree := h.imp_left (fun h => by simp only [Field.includeFreeL, Bool.and_eq_true] at h; exact h.1)
    have h2 : IncOk r load (Field.includeFreeL fds) :=
      h.imp_left (fun h => by simp only [Field.includeFreeL, Bool.and_eq_true] at h; exact h.2)
    simp only [evalFields, Field.renameL]
    refine .bind (checkNew_rename ps par tg) (fun _ => .bind (evalExpr_rename e h1 ps d) (fun v => ?_))
    cases tg with
    | field f =>
      simp only [Target.rename]
      have := evalFields_rename fds h2 d (ps ++ [.mk f v]) par
      rw [Pair.renameFieldsL_append] at this
      exact this
    | global g => exact .bind (setGlobal_rename g v) (fun _ => evalFields_rename fds h2 d ps par)
    | parent =>
      cases v <;> simp only [Target.rename, Renaming.v, Value.renameFields, Value.getType] <;> try exact .fail' _ _
      rename_i o
      exact evalFields_rename fds h2 d ps (some o)
termination_by structural t => t
end

theorem evalDoc_rename (D : List Field) (h : IncOk r load (Field.includeFreeL D)) :
    Renames r (evalDoc fs file stack load D) (evalDoc fs file stack load (Field.renameL r D)) (Obj.renameFields r.field) := by
  unfold evalDoc
  exact .bind (evalFields_rename D h 1 [] none) (fun x => .bind .fresh (fun i => Renames.pure (Obj.renameFields r.field) _))

end

/-! ## Included files keep their own names -/

theorem ESt.rename_globals {r : Renaming} (hr : ∀ x, r.field x = x) (st : ESt) :
    st.rename r = { st with globals := st.globals.map (fun x => (r.global x.1, x.2)) } := by
  have : r.field = id := funext hr
  simp only [ESt.rename, this, Value.renameFields_id]
  simp

theorem ownGlobals_rename {r : Renaming} (hr : ∀ x, r.field x = x) (m : EM Value) : Renames r (EM.ownGlobals m) (EM.ownGlobals m) r.v := by
  intro st
  have hv : ∀ v, r.v v = v := by
    intro v
    have : r.field = id := funext hr
    simp only [Renaming.v, this, Value.renameFields_id]
  rw [ESt.rename_globals hr]
  unfold EM.ownGlobals
  dsimp only
  cases m { st with globals := [] } with
  | error e => exact .inl rfl
  | ok x =>
    show _ = _
    rw [hv, ESt.rename_globals hr]

theorem Renames.dite {r : Renaming} {c : Prop} {_ : Decidable c} {m : c → EM Value} {m' : ¬ c → EM Value} (h : ∀ hc, Renames r (m hc) (m hc) r.v)
    (h' : ∀ hc, Renames r (m' hc) (m' hc) r.v) : Renames r (dite c m m') (dite c m m') r.v := by
  by_cases hc : c
  · rw [dif_pos hc]; exact h hc
  · rw [dif_neg hc]; exact h' hc

theorem loadN_rename [Unicode] {r : Renaming} (hr : ∀ x, r.field x = x) (fs : FS) : ∀ n, LoadRenames r (loadN fs n)
  | 0, stack, kind, path => by intro st; unfold loadN; exact .inl rfl
  | n + 1, stack, kind, path => by
    unfold loadN
    split
    · exact fun st => .inl rfl
    · cases kind with
      | str => exact Renames.pure r.v _
      | obj => exact .dite (fun _ => ownGlobals_rename hr _) (fun _ _ => .inl rfl)
      | arr => exact .dite (fun _ => ownGlobals_rename hr _) (fun _ _ => .inl rfl)
      | tup => exact .dite (fun _ => ownGlobals_rename hr _) (fun _ _ => .inl rfl)

/-- The meaning of a document with new names. -/
theorem meaning_rename [Unicode] {r : Renaming} {fs : FS} {file : Option Str} {stack : List Str} (D : List Field)
    (h : Field.includeFreeL D = true ∨ ∀ x, r.field x = x) (rt : Rt) :
    RenRes r (Obj.renameFields r.field) (meaning fs file stack D rt) (meaning fs file stack (Field.renameL r D) rt) :=
  evalDoc_rename D (h.imp_right fun h => loadN_rename h fs _) ⟨[], [], rt⟩

end Over

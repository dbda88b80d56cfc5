import Verif.Lemmas.Closed
import Verif.Props.Display
import Verif.Props.Include
import Verif.Props.Inline

/-!
# C70: closed texts mean the same everywhere; an include can be replaced by the text of the file

`Expr.closed`, `ClosedFile` and `bracketed` are in `Spec/Closed.lean`, `ReadsAt`, `Denotes` and `Rejected` in `Spec/Place.lean`,
bracket levels in `Spec/Depth.lean`.
-/

namespace Over

section
variable [Unicode]

theorem ReadsAt.fits {fs : FS} {rt : Rt} {A : List (Str × Str)} {u : Str} {p : Obj} (h : ReadsAt fs rt A u p) (L : Nat) :
    Fits (1 + A.length) L ↔ A.length + L ≤ 63 := by
  have := h.inside
  unfold Fits
  omega

/-- The depth of an expression without includes. -/
theorem depths_at (fs : FS) (ex : Expr) (ps : List Pair) (k : Nat) (st : ESt) :
    match evalExpr fs none [] (theLoader fs) ex ps k st with
    | .ok _ => Fits k ex.levels
    | .error e => e = .sem none .maxDepth → ¬ Fits k ex.levels := by
  have := depths_expr (T := (· = .sem none .maxDepth)) (fs := fs) (file := none) (stack := []) (load := theLoader fs) (G := [])
    (by intro k hk; cases hk; rfl) (loadN_quiet fs (fun _ h => .inl h) _) (List.nil_subset _) ex ps k st
  cases h : evalExpr fs none [] (theLoader fs) ex ps k st with
  | ok x => rw [h] at this; exact this
  | error e => rw [h] at this; exact fun he => (this he).1

/-- Errors of a text at a place. -/
theorem errs_at {fs : FS} {rt : Rt} {A : List (Str × Str)} {u : Str} {p : Obj} {st : ESt}
    (hc : Continues fs rt A u p st) {e : Str} {ex : Expr} (he : SpExpr ex e) {k : SemKind}
    (h : evalExpr fs none [] (theLoader fs) ex p.pairs (1 + A.length) st = .error (.sem none k)) {y : Str} (hy : FieldName y)
    (hn : NotNamed p.pairs y) {rest : Str} (hr : WellFormed rest) :
    ∃ kind, k.Reported kind ∧
      fromStr fs (nest A (u ++ c!"\n" ++ y ++ c!":" ++ e ++ c!"\n" ++ rest)) rt = .err ⟨none, kind⟩ := by
  obtain ⟨-, h2, -⟩ := field_at hc hy hn he
  exact (h2 _ rest hr h).fails

/-- C70: what a closed value text means does not depend on where it stands.  There is one outcome, a value or an error, such that at
every place in every document, with every file system and process state, the text gives a new field that value (the same data; each time
new containers), or is rejected with that error; only where the place and the brackets of the text are deeper than 63 it is rejected with
the depth error. -/
theorem c70_closed_text (e : Str) (ex : Expr) (he : SpExpr ex e) (hcl : ex.closed = true) :
    ∃ r : Except SemKind Value, ∀ fs rt A u p, ReadsAt fs rt A u p → ∀ y, FieldName y → NotNamed p.pairs y →
      match r with
      | .ok v => (A.length + ex.levels ≤ 63 → ∃ p' v', ReadsAt fs rt A (u ++ c!"\n" ++ y ++ c!":" ++ e) p' ∧
            p'.pairs = p.pairs ++ [.mk y v'] ∧ p'.parent = p.parent ∧ v'.data = v.data) ∧
          (63 < A.length + ex.levels → Rejected fs rt A u p e .maxDepth)
      | .error k => ∃ k', (k' = k ∨ k' = .maxDepth ∧ 63 < A.length + ex.levels) ∧ ∀ rest, WellFormed rest →
          ∃ kind, k'.Reported kind ∧
            fromStr fs (nest A (u ++ c!"\n" ++ y ++ c!":" ++ e ++ c!"\n" ++ rest)) rt = .err ⟨none, kind⟩ := by
  simp only [Expr.closed, Bool.and_eq_true] at hcl
  let st0 : ESt := ⟨[], [], startRt⟩
  have key := fun fs (A : List (Str × Str)) (ps : List Pair) st => alike_expr (f := none) (f' := none) (fs := noFiles) (fs' := fs) (stack := [])
    (stack' := []) (load := theLoader noFiles) (load' := theLoader fs) ex hcl.1 (ps := []) (ps' := ps) (d := 1) (d' := 1 + A.length)
    (by omega) (.inr hcl.2) st0 st
  have h0 := depths_at noFiles ex [] 1 st0
  have deep : ∀ kind, SemKind.Reported .maxDepth kind → ∃ l c, kind = .maxDepth l c := by
    rintro _ ⟨⟩; exact ⟨_, _, rfl⟩
  cases hr : evalExpr noFiles none [] (theLoader noFiles) ex [] 1 st0 with
  | ok x =>
    obtain ⟨v, s⟩ := x
    refine ⟨.ok v, fun fs rt A u p h y hy hn => ?_⟩
    obtain ⟨st, -, hc⟩ := at_place h
    have hd := depths_at fs ex p.pairs (1 + A.length) st
    rcases key fs A p.pairs st with h1 | ⟨a, s1, a', s', h1, h2, h3⟩ | ⟨k, h1, -⟩
    · rw [h1, h.fits] at hd
      exact ⟨fun hlt => absurd hlt (hd rfl), fun _ => rejected_of_eval hc he deep h1⟩
    · rw [hr] at h1
      cases h1
      rw [h2, h.fits] at hd
      obtain ⟨-, p', h4, h5, h6⟩ := (field_at hc hy hn he).2.2 _ _ h2
      exact ⟨fun _ => ⟨p', a', h4, h5, h6, h3.symm⟩, fun hlt => by omega⟩
    · rw [hr] at h1; cases h1
  | error er =>
    have hex : ∃ k, er = .sem none k := by
      rcases key noFiles [] [] st0 with h1 | ⟨a, s1, a', s', h1, -⟩ | ⟨k, h1, -⟩
      · rw [show 1 + ([] : List (Str × Str)).length = 1 from rfl, hr] at h1; cases h1; exact ⟨_, rfl⟩
      · rw [hr] at h1; cases h1
      · rw [hr] at h1; cases h1; exact ⟨_, rfl⟩
    obtain ⟨k, rfl⟩ := hex
    refine ⟨.error k, fun fs rt A u p h y hy hn => ?_⟩
    obtain ⟨st, -, hc⟩ := at_place h
    have hd := depths_at fs ex p.pairs (1 + A.length) st
    rcases key fs A p.pairs st with h1 | ⟨a, s1, a', s', h1, h2, h3⟩ | ⟨k', h1, h2⟩
    · rw [h1, h.fits] at hd
      have := hd rfl
      exact ⟨.maxDepth, .inr ⟨rfl, by omega⟩, fun rest hrest => errs_at hc he h1 hy hn hrest⟩
    · rw [hr] at h1; cases h1
    · rw [hr] at h1
      cases h1
      exact ⟨k, .inl rfl, fun rest hrest => errs_at hc he h2 hy hn hrest⟩

/-- C70: so what a closed value text denotes at one place it denotes, with the same data, at every other place where the depth
fits. -/
theorem c70_same_value (e : Str) (ex : Expr) (he : SpExpr ex e) (hcl : ex.closed = true)
    (fs : FS) (rt : Rt) (A : List (Str × Str)) (u : Str) (p : Obj) (h : ReadsAt fs rt A u p) (v : Value)
    (hv : Denotes fs rt A u p e v)
    (fs' : FS) (rt' : Rt) (A' : List (Str × Str)) (u' : Str) (p' : Obj) (h' : ReadsAt fs' rt' A' u' p')
    (hd : A'.length + ex.levels ≤ 63) (y : Str) (hy : FieldName y) (hn : NotNamed p'.pairs y) :
    ∃ q w, ReadsAt fs' rt' A' (u' ++ c!"\n" ++ y ++ c!":" ++ e) q ∧ q.pairs = p'.pairs ++ [.mk y w] ∧ w.data = v.data := by
  obtain ⟨r, hr⟩ := c70_closed_text e ex he hcl
  obtain ⟨st, -, hc⟩ := at_place h
  obtain ⟨stv, hev⟩ := hv.eval hc he
  have hfit := depths_at fs ex p.pairs (1 + A.length) st
  rw [hev, h.fits] at hfit
  obtain ⟨z, pz, hz, hnz, hrz, hpz⟩ := hv
  have h1 := hr fs rt A u p h z hz hnz
  have h2 := hr fs' rt' A' u' p' h' y hy hn
  cases r with
  | ok v0 =>
    obtain ⟨pz', v', h3, h4, -, h5⟩ := h1.1 hfit
    obtain ⟨q, w, h6, h7, -, h8⟩ := h2.1 hd
    refine ⟨q, w, h6, h7, h8.trans (h5.symm.trans ?_)⟩
    obtain ⟨w', st'', h9, h10⟩ := denotes_eval hc hz hnz he h3
    rw [hev] at h9
    cases h9
    rw [h4] at h10
    simp at h10
    rw [h10]
  | error k =>
    obtain ⟨k', h3 | ⟨-, h3⟩, h4⟩ := h1
    · subst h3
      have h0 : WellFormed [] := ⟨[], .nil (.gap .nil)⟩
      obtain ⟨kind, -, h5⟩ := h4 [] h0
      -- the same text with nothing behind it is read
      obtain ⟨hA, hu, o, s, hro, -⟩ := hrz
      obtain ⟨hz1, hz2, hz3⟩ := field_at hc hz hnz he
      obtain ⟨-, i, hri⟩ := (hc _ _ (spDoc_append h0.choose_spec _ _ (spOne (.field hz) he))).2 (p.pairs ++ [.mk z v]) p.parent stv (by
        have : h0.choose = [] := c49_one_document _ _ _ h0.choose_spec (.nil (.gap .nil))
        rw [this, List.append_nil, evalFields_one, if_neg (notNamed_mem hnz), hev])
      obtain ⟨-, -, o', s', h6, -⟩ := hri
      have e1 : u ++ '\n' :: ((z ++ ':' :: e) ++ '\n' :: []) = u ++ c!"\n" ++ z ++ c!":" ++ e ++ c!"\n" ++ [] := by simp
      rw [e1, h5] at h6
      cases h6
    · omega

/-! ## Files -/

omit [Unicode] in
theorem Alike.own {f f' : Option Str} {Q : Value → Value → Prop} {m m' : EM Value} (h : Alike f f' Q m m') :
    Alike f f' Q (EM.ownGlobals m) m' := by
  intro st st'
  unfold EM.ownGlobals
  rcases h { st with globals := [] } st' with h1 | ⟨a, s, a', s', h1, h2, hq⟩ | ⟨k, h1, h2⟩
  · exact .inl h1
  · exact .inr (.inl ⟨a, { s with globals := st.globals }, a', s', by rw [h1], h2, hq⟩)
  · exact .inr (.inr ⟨k, by rw [h1], h2⟩)

omit [Unicode] in
theorem Alike.check {f f' : Option Str} {Q : Value → Value → Prop} {m m' : EM Value} (h : Alike f f' Q m m') (d : Nat) :
    Alike f f' Q m (do Over.depthCheck f' d; m') := by
  intro st st'
  unfold Over.depthCheck
  by_cases hd : d > 64
  · left; rw [if_pos hd]; rfl
  · rw [if_neg hd]
    exact h st st'

omit [Unicode] in
theorem Alike.map_left {f f' : Option Str} {α β γ : Type} {Q : α → β → Prop} {R : γ → β → Prop} {m : EM α} {m' : EM β}
    (h : Alike f f' Q m m') (g : α → γ) (hg : ∀ a b, Q a b → R (g a) b) : Alike f f' R (do let a ← m; Pure.pure (g a)) m' := by
  intro st st'
  rcases h st st' with h1 | ⟨a, s, a', s', h1, h2, hq⟩ | ⟨k, h1, h2⟩
  · exact .inl h1
  · exact .inr (.inl ⟨g a, s, a', s', by rw [EM.bind_ok h1]; rfl, h2, hg _ _ hq⟩)
  · exact .inr (.inr ⟨k, EM.bind_err h1, h2⟩)

/-- The value of an included file, and of its text between brackets. -/
theorem alike_load {fs : FS} {kind : IncKind} {t : Str} {n : Nat} (hcl : ClosedFile kind t n) {path : Str}
    (ht : fs.read path = .ok t) (N : Nat) (stack : List Str) :
    ∃ ex, SpExpr ex (bracketed kind t) ∧ ex.levels = 1 + n ∧ ∀ ps d, 1 ≤ d →
      Alike (some path) none SameData (loadN fs (N + 1) stack kind path) (evalExpr fs none [] (theLoader fs) ex ps d) := by
  cases kind with
  | str => exact hcl.elim
  | obj =>
    obtain ⟨d, hd, hpl, hn⟩ := hcl
    refine ⟨.mk (.obj d) [], ?_, by simp [Expr.levels, Term.levels, OpTerm.levelsL, hn], fun ps k hk => ?_⟩
    · have := SpExpr.mk (.obj (spDoc_newline hd)) .nil
      simpa [bracketed] using this
    have hx : ∃ d, SpDoc d t := ⟨d, hd⟩
    have hch : hx.choose = d := c49_one_document _ _ _ hx.choose_spec hd
    rw [loadN_obj ht N stack hx, hch, show evalExpr fs none [] (theLoader fs) (.mk (.obj d) []) ps k =
      evalTerm fs none [] (theLoader fs) (.obj d) ps k from funext fun _ => evalExpr_term]
    simp only [evalTerm]
    refine .own (.check ?_ _)
    refine .map_left (Q := fun (o : Obj) (v : Value) => Value.data (.obj o) = v.data) ?_ (fun o => Value.obj o) fun _ _ h => h
    unfold evalDoc
    refine .bind (alike_fields d hpl (by omega) rfl rfl) (fun x x' hx => ?_)
    obtain ⟨q, r⟩ := x
    obtain ⟨q', r'⟩ := x'
    obtain ⟨h1, h2⟩ : Pair.dataL q = Pair.dataL q' ∧ Obj.dataP r = Obj.dataP r' := hx
    exact .bind .fresh fun i j _ => .pure (by simp only [Value.data, Obj.data, h1, h2])
  | arr =>
    obtain ⟨es, hd, hpl, hnf, hn⟩ := hcl
    refine ⟨.mk (.arr es) [], ?_, by simp [Expr.levels, Term.levels, OpTerm.levelsL, hn], fun ps k hk => ?_⟩
    · have := SpExpr.mk (.arr (spItems_close es t hd)) .nil
      simpa [bracketed] using this
    have hx : ∃ es, SpItems true es t := ⟨es, hd⟩
    have hch : hx.choose = es := c49_one_sequence _ _ _ hx.choose_spec hd
    rw [loadN_arr ht N stack hx, hch, show evalExpr fs none [] (theLoader fs) (.mk (.arr es) []) ps k =
      evalTerm fs none [] (theLoader fs) (.arr es) ps k from funext fun _ => evalExpr_term]
    simp only [evalTerm]
    refine .own (.check ?_ _)
    unfold evalArrFile
    refine .bind (alike_elems es hpl (by omega) (.inr hnf)) (fun x x' hx => ?_)
    obtain ⟨vs, t⟩ := x
    obtain ⟨vs', t'⟩ := x'
    obtain ⟨h1, rfl⟩ : Value.dataL vs = Value.dataL vs' ∧ t = t' := hx
    exact .bind .fresh fun i j _ => .pure (by
      show Value.data _ = Value.data _
      simp only [Value.data, h1])
  | tup =>
    obtain ⟨es, hd, hpl, hnf, hn⟩ := hcl
    refine ⟨.mk (.tup es) [], ?_, by simp [Expr.levels, Term.levels, OpTerm.levelsL, hn], fun ps k hk => ?_⟩
    · have := SpExpr.mk (.tup (spItems_close es t hd)) .nil
      simpa [bracketed] using this
    have hx : ∃ es, SpItems true es t := ⟨es, hd⟩
    have hch : hx.choose = es := c49_one_sequence _ _ _ hx.choose_spec hd
    rw [loadN_tup ht N stack hx, hch, show evalExpr fs none [] (theLoader fs) (.mk (.tup es) []) ps k =
      evalTerm fs none [] (theLoader fs) (.tup es) ps k from funext fun _ => evalExpr_term]
    simp only [evalTerm]
    refine .own (.check ?_ _)
    unfold evalTupFile
    refine .bind (alike_items es hpl (by omega) (.inr hnf)) (fun vs vs' hx => ?_)
    exact .bind .fresh fun i j hij => .pure (by
      show Value.data _ = Value.data _
      have hx' : vs.map Value.data = vs'.map Value.data := by rw [← Value.dataL_eq, ← Value.dataL_eq]; exact hx
      simp only [Value.data, show Value.dataL vs = _ from hx, Value.map_getType_of_dataL_eq hx'])

/-- The two evaluations at a place. -/
theorem include_and_text {fs : FS} {rt : Rt} (hrt : rt.Fine) {A : List (Str × Str)} {u : Str} {p : Obj}
    {path F t : Str} (hF : Leads fs path F) (h : ReadsAt (fs.without F) rt A u p)
    (ht : fs.read path = .ok t) {k : Option IncKind} {n : Nat} (hcl : ClosedFile (k.getD .obj) t n) :
    ∃ ex st, SpExpr ex (bracketed (k.getD .obj) t) ∧ ex.levels = 1 + n ∧ Continues fs rt A u p st ∧
      (A.length ≤ 62 → ∀ e, evalExpr fs none [] (theLoader fs) (inclExpr k path) p.pairs (1 + A.length) st = .error e →
        evalExpr fs none [] (theLoader fs) ex p.pairs (1 + A.length) st = .error (.sem none .maxDepth) ∨
        ∃ k, e = .sem (some path) k ∧ evalExpr fs none [] (theLoader fs) ex p.pairs (1 + A.length) st = .error (.sem none k)) ∧
      (∀ v st', evalExpr fs none [] (theLoader fs) (inclExpr k path) p.pairs (1 + A.length) st = .ok (v, st') →
        evalExpr fs none [] (theLoader fs) ex p.pairs (1 + A.length) st = .error (.sem none .maxDepth) ∨
        ∃ w st'', evalExpr fs none [] (theLoader fs) ex p.pairs (1 + A.length) st = .ok (w, st'') ∧ v.data = w.data) := by
  obtain ⟨st, st1, hc, -, -, -, he⟩ := first_include (without_sub fs F) (Nat.le_refl _) hrt h hF
    (fun q hq => (leads_without.1 hq).2 rfl) k
  obtain ⟨ex, h1, h2, h3⟩ := alike_load hcl ht fs.nodes.length [F]
  refine ⟨ex, st, h1, h2, hc, ?_, ?_⟩
  · intro hA e hev
    rw [hev, if_neg (by omega)] at he
    rcases h3 p.pairs (1 + A.length) (by omega) st1 st with h4 | ⟨a, s, a', s', h4, h5, h6⟩ | ⟨kk, h4, h5⟩
    · exact .inl h4
    · rw [h4] at he; cases he
    · rw [h4] at he; cases he; exact .inr ⟨kk, rfl, h5⟩
  · intro v st' hev
    rw [hev] at he
    by_cases hd : 1 + A.length + 1 > 64
    · rw [if_pos hd] at he; cases he
    rw [if_neg hd] at he
    rcases h3 p.pairs (1 + A.length) (by omega) st1 st with h4 | ⟨a, s, a', s', h4, h5, h6⟩ | ⟨kk, h4, h5⟩
    · exact .inl h4
    · rw [h4] at he; cases he; exact .inr ⟨a', s', h5, h6⟩
    · rw [h4] at he; cases he

/-- C70: replacing an include by the text of the file.  Let the field `y` at a place be defined by the first include of a closed file,
with the value `v`.  With the text of the file between brackets of the right kind instead, the field is read with the same data, if the
brackets of the text fit at this place. -/
theorem c70_include_to_text (fs : FS) (rt : Rt) (hrt : rt.Fine) (A : List (Str × Str)) (u : Str) (p : Obj)
    (path F b t : Str) (hF : Leads fs path F) (h : ReadsAt (fs.without F) rt A u p) (hb : StrBody path b)
    (ht : fs.read path = .ok t) (k : Option IncKind) (n : Nat) (hcl : ClosedFile (k.getD .obj) t n)
    (y : Str) (hy : FieldName y) (hn : NotNamed p.pairs y) (p1 : Obj) (v : Value)
    (h1 : ReadsAt fs rt A (u ++ c!"\n" ++ y ++ c!":" ++ includeText k b) p1) (hv : p1.pairs = p.pairs ++ [.mk y v]) :
    (A.length + 1 + n ≤ 63 → ∃ p2 w, ReadsAt fs rt A (u ++ c!"\n" ++ y ++ c!":" ++ bracketed (k.getD .obj) t) p2 ∧
      p2.pairs = p.pairs ++ [.mk y w] ∧ p2.parent = p.parent ∧ w.data = v.data) ∧
    (63 < A.length + 1 + n → Rejected fs rt A u p (bracketed (k.getD .obj) t) .maxDepth) := by
  obtain ⟨ex, st, hex, hlev, hc, -, hok⟩ := include_and_text hrt hF h ht hcl
  obtain ⟨v', st1, hev, hp⟩ := denotes_eval hc hy hn (spIncl (k := k) hb) h1
  have hvv : v' = v := by
    rw [hv] at hp
    simp at hp
    exact hp.symm
  subst hvv
  have hd := depths_at fs ex p.pairs (1 + A.length) st
  have hfit := (readsAt_sub (without_sub fs F) h).fits ex.levels
  rcases hok _ _ hev with h2 | ⟨w, st2, h2, h3⟩
  · rw [h2] at hd
    have hd := fun hx => hd rfl (hfit.2 hx)
    refine ⟨fun hlt => absurd (by omega) hd, fun _ => rejected_of_eval hc hex ?_ h2⟩
    rintro _ ⟨⟩; exact ⟨_, _, rfl⟩
  · rw [h2] at hd
    have hd := hfit.1 hd
    obtain ⟨-, p', h4, h5, h6⟩ := (field_at hc hy hn hex).2.2 _ _ h2
    exact ⟨fun _ => ⟨p', w, h4, h5, h6, h3.symm⟩, fun hlt => by omega⟩

/-- C70: moving a text to a file.  If the field `y` is read with a closed text between brackets, then with the first include of a file that
holds this text instead, it is read with the same data. -/
theorem c70_text_to_include (fs : FS) (rt : Rt) (hrt : rt.Fine) (A : List (Str × Str)) (u : Str) (p : Obj)
    (path F b t : Str) (hF : Leads fs path F) (h : ReadsAt (fs.without F) rt A u p) (hb : StrBody path b)
    (ht : fs.read path = .ok t) (k : Option IncKind) (n : Nat) (hcl : ClosedFile (k.getD .obj) t n)
    (y : Str) (hy : FieldName y) (hn : NotNamed p.pairs y) (p2 : Obj) (w : Value)
    (h2 : ReadsAt fs rt A (u ++ c!"\n" ++ y ++ c!":" ++ bracketed (k.getD .obj) t) p2) (hw : p2.pairs = p.pairs ++ [.mk y w]) :
    ∃ p1 v, ReadsAt fs rt A (u ++ c!"\n" ++ y ++ c!":" ++ includeText k b) p1 ∧ p1.pairs = p.pairs ++ [.mk y v] ∧
      p1.parent = p.parent ∧ v.data = w.data := by
  obtain ⟨ex, st, hex, hlev, hc, herr, hok⟩ := include_and_text hrt hF h ht hcl
  obtain ⟨w', st1, hev, hp⟩ := denotes_eval hc hy hn hex h2
  have hvv : w' = w := by
    rw [hw] at hp
    simp at hp
    exact hp.symm
  subst hvv
  have hd := depths_at fs ex p.pairs (1 + A.length) st
  rw [hev] at hd
  have hA := ((readsAt_sub (without_sub fs F) h).fits ex.levels).1 hd
  cases hi : evalExpr fs none [] (theLoader fs) (inclExpr k path) p.pairs (1 + A.length) st with
  | error e =>
    rcases herr (by omega) e hi with h3 | ⟨kk, -, h3⟩ <;> rw [hev] at h3 <;> cases h3
  | ok x =>
    obtain ⟨v, st2⟩ := x
    rcases hok _ _ hi with h3 | ⟨w2, st3, h3, h4⟩ <;> rw [hev] at h3 <;> cases h3
    obtain ⟨-, p', h5, h6, h7⟩ := (field_at hc hy hn (spIncl (k := k) hb)).2.2 _ _ hi
    exact ⟨p', v, h5, h6, h7, h4⟩

end

/-! ## Examples -/

section
attribute [local instance] sampleUnicode

/-- A file that uses its own field. -/
def closedFiles : FS := files [(c!"f", c!"k:[1 2]\nm:k")]

theorem closedFile_f : ClosedFile .obj c!"k:[1 2]\nm:k" 1 := by
  refine ⟨[.mk (.field c!"k") samplePairArr, .mk (.field c!"m") (.mk (.name c!"k") [])], ?_, by decide, by decide⟩
  have h1 := spOne (.field (sampleFieldName 'k' (by decide))) samplePairArr_sp
  have h2 := spOne (.field (sampleFieldName 'm' (by decide))) (spVar (sampleFieldName 'k' (by decide)).varName)
  have := spDoc_append h2 _ _ h1
  simpa [SpDoc] using this

theorem closedLeads : Leads closedFiles c!"f" c!"f" := ⟨by decide +kernel, ⟨_, rfl⟩, rfl⟩

theorem noFiles_sub_without (fs : FS) (F : Str) : noFiles.Sub (fs.without F) := noFiles_sub _

/-- The object behind `m: 2` when `y` is the file, or its text. -/
def closedPlace (i j : Nat) : Obj :=
  .mk (j + 1) [.mk c!"m" (.int 2), .mk c!"y" (.obj (.mk j [.mk c!"k" (.arr i .int [.int 1, .int 2]),
    .mk c!"m" (.arr i .int [.int 1, .int 2])] none))] none

theorem closedText_reads : ReadsAt closedFiles startRt [(c!"z: 1", c!"a")] (c!"m: 2" ++ c!"\n" ++ c!"y" ++ c!":" ++
    bracketed .obj c!"k:[1 2]\nm:k") (closedPlace 0 1) := by
  obtain ⟨s1, g1⟩ : ∃ s, fromStr noFiles c!"z: 1" startRt = .ok (.mk 0 [.mk c!"z" (.int 1)] none) s :=
    Res.gives_ok (by decide +kernel)
  obtain ⟨s2, g2⟩ : ∃ s, fromStr noFiles c!"m: 2\ny:{k:[1 2]\nm:k\n}" startRt = .ok (closedPlace 0 1) s :=
    Res.gives_ok (by decide +kernel)
  obtain ⟨s3, g3⟩ : ∃ s, fromStr noFiles (nest [(c!"z: 1", c!"a")] c!"m: 2\ny:{k:[1 2]\nm:k\n}") startRt =
      .ok (.mk 3 [.mk c!"z" (.int 1), .mk c!"a" (.obj (closedPlace 0 1))] none) s :=
    Res.gives_ok (by decide +kernel)
  refine readsAt_sub (noFiles_sub _) ⟨?_, wellFormed_of_read g2, _, s3, g3, .inside (ps := [.mk c!"z" (.int 1)]) rfl .here⟩
  intro l hl
  rw [List.mem_singleton.1 hl]
  exact ⟨wellFormed_of_read g1, sampleFieldName 'a' (by decide)⟩

attribute [local irreducible] ReadsAt Rejected in
/-- C70: moving the text to the file, and back. -/
example : (∃ p1 v, ReadsAt closedFiles startRt [(c!"z: 1", c!"a")] (c!"m: 2" ++ c!"\n" ++ c!"y" ++ c!":" ++ includeText none c!"f") p1 ∧
      p1.pairs = [.mk c!"m" (.int 2), .mk c!"y" v] ∧
      v.data = (Value.obj (.mk 1 [.mk c!"k" (.arr 0 .int [.int 1, .int 2]), .mk c!"m" (.arr 0 .int [.int 1, .int 2])] none)).data) ∧
    ∃ p1 p2 v w, ReadsAt closedFiles startRt [(c!"z: 1", c!"a")] (c!"m: 2" ++ c!"\n" ++ c!"y" ++ c!":" ++ includeText none c!"f") p1 ∧
      p1.pairs = [.mk c!"m" (.int 2), .mk c!"y" v] ∧
      ReadsAt closedFiles startRt [(c!"z: 1", c!"a")] (c!"m: 2" ++ c!"\n" ++ c!"y" ++ c!":" ++ bracketed .obj c!"k:[1 2]\nm:k") p2 ∧
      p2.pairs = [.mk c!"m" (.int 2), .mk c!"y" w] ∧ w.data = v.data := by
  obtain ⟨p1, v, h1, h2, -, h3⟩ := c70_text_to_include closedFiles startRt startRt_fine [(c!"z: 1", c!"a")] c!"m: 2" samplePlace c!"f" c!"f"
    c!"f" c!"k:[1 2]\nm:k" closedLeads (samplePlace_reads _ (noFiles_sub_without _ _)) (sampleBody 'f') rfl none 1 closedFile_f c!"y"
    (sampleFieldName 'y' (by decide)) (by simp [NotNamed, samplePlace, Obj.pairs, Pair.field]) (closedPlace 0 1) _ closedText_reads rfl
  refine ⟨⟨p1, v, h1, h2, h3⟩, ?_⟩
  obtain ⟨h4, -⟩ := c70_include_to_text closedFiles startRt startRt_fine [(c!"z: 1", c!"a")] c!"m: 2" samplePlace c!"f" c!"f"
    c!"f" c!"k:[1 2]\nm:k" closedLeads (samplePlace_reads _ (noFiles_sub_without _ _)) (sampleBody 'f') rfl none 1 closedFile_f c!"y"
    (sampleFieldName 'y' (by decide)) (by simp [NotNamed, samplePlace, Obj.pairs, Pair.field]) p1 v h1 h2
  obtain ⟨p2, w, h5, h6, -, h7⟩ := h4 (by simp)
  exact ⟨p1, p2, v, w, h1, h2, h5, h6, h7⟩

attribute [local irreducible] ReadsAt Denotes Rejected in
/-- C70: what `[1 2]` denotes inside one object it denotes inside another. -/
example (v : Value) (hv : Denotes noFiles startRt [(c!"x: 1", c!"a")] c!"b: 2" (.mk 0 [.mk c!"b" (.int 2)] none) c!"[1 2]" v) :
    ∃ q w, ReadsAt closedFiles startRt [(c!"z: 1", c!"a")] (c!"m: 2" ++ c!"\n" ++ c!"y" ++ c!":" ++ c!"[1 2]") q ∧
      q.pairs = [.mk c!"m" (.int 2), .mk c!"y" w] ∧ w.data = v.data :=
  c70_same_value c!"[1 2]" samplePairArr samplePairArr_sp (by decide) noFiles startRt _ _ _ sampleInside v hv closedFiles startRt
    [(c!"z: 1", c!"a")] c!"m: 2" samplePlace (samplePlace_reads _ (noFiles_sub _)) (by decide) c!"y" (sampleFieldName 'y' (by decide))
    (by simp [NotNamed, samplePlace, Obj.pairs, Pair.field])

/-- It does denote a value there. -/
example : ∃ v, Denotes noFiles startRt [(c!"x: 1", c!"a")] c!"b: 2" (.mk 0 [.mk c!"b" (.int 2)] none) c!"[1 2]" v := by
  obtain ⟨r, hr⟩ := c70_closed_text c!"[1 2]" samplePairArr samplePairArr_sp (by decide)
  have h := hr noFiles startRt _ _ _ sampleInside c!"y" (sampleFieldName 'y' (by decide)) (by simp [NotNamed, Obj.pairs, Pair.field])
  cases r with
  | ok v =>
    obtain ⟨p', v', h1, h2, -⟩ := h.1 (by decide)
    exact ⟨v', c!"y", p', sampleFieldName 'y' (by decide), by simp [NotNamed, Obj.pairs, Pair.field], h1, h2⟩
  | error k =>
    obtain ⟨k', -, h1⟩ := h
    obtain ⟨kind, -, h2⟩ := h1 [] ⟨[], .nil (.gap .nil)⟩
    obtain ⟨s, h3⟩ : ∃ s, fromStr noFiles (nest [(c!"x: 1", c!"a")] c!"b: 2\ny:[1 2]\n") startRt =
        .ok (.mk 2 [.mk c!"x" (.int 1), .mk c!"a" (.obj (.mk 1 [.mk c!"b" (.int 2),
          .mk c!"y" (.arr 0 .int [.int 1, .int 2])] none))] none) s := Res.gives_ok (by decide +kernel)
    rw [show nest [(c!"x: 1", c!"a")] (c!"b: 2" ++ c!"\n" ++ c!"y" ++ c!":" ++ c!"[1 2]" ++ c!"\n" ++ []) =
      nest [(c!"x: 1", c!"a")] c!"b: 2\ny:[1 2]\n" from rfl, h3] at h2
    cases h2

end

end Over

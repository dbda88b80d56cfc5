import Verif.Lemmas.Kinds
import Verif.Props.Include

/-! # No file is both an object and a list of values (C84)

`Denotes`, `ReadsAt` are in `Spec/Place.lean`, `includeText` and `Leads` in `Spec/Include.lean`. -/

namespace Over

section
variable [Unicode]

/-- A text that is both a document and a sequence of values is an empty one of both. -/
theorem both_empty {d : List Field} {es : List Expr} {t : Str} (h : SpDoc d t) (h' : SpItems true es t) : d = [] ∧ es = [] := by
  cases d with
  | cons f d => exact (fields_not_items h h').elim
  | nil =>
    refine ⟨rfl, ?_⟩
    cases h with
    | nil hg => exact spItems_unique h' (.nil hg)

section
variable (fs : FS) (rt : Rt) (hrt : rt.Fine) (A : List (Str × Str)) (u : Str) (p : Obj)
    (path F b t : Str) (hF : Leads fs path F) (h : ReadsAt (fs.without F) rt A u p) (hb : StrBody path b) (ht : fs.read path = .ok t)
    (k : IncKind) (hk : k = .arr ∨ k = .tup) (v : Value) (hv : Denotes fs rt A u p (includeText (some k) b) v)
include hrt hF h hb ht hk hv

theorem denotes_items : ∃ es, SpItems true es t ∧ (es = [] → (∃ i, v = .arr i .any []) ∨ ∃ i, v = .tup i [] []) := by
  obtain ⟨st, st1, hc, -, -, -, he⟩ := first_include (without_sub fs F) (Nat.le_refl _) hrt h hF
    (fun q hq => (leads_without.1 hq).2 rfl) (some k)
  obtain ⟨st', hev⟩ := hv.eval hc (spIncl (k := some k) hb)
  rw [hev] at he
  by_cases hd : 1 + A.length + 1 > 64
  · rw [if_pos hd] at he; cases he
  rw [if_neg hd] at he
  cases hl : loadN fs (fs.nodes.length + 1) [F] k path st1 with
  | error e => simp only [Option.getD, hl] at he; cases he
  | ok x =>
    obtain ⟨w, st2⟩ := x
    simp only [Option.getD, hl] at he
    cases he
    by_cases hft : FileText k t
    · rcases hk with rfl | rfl
      · rw [loadN_arr ht _ _ hft] at hl
        refine ⟨_, Exists.choose_spec hft, fun hnil => .inl ?_⟩
        rw [hnil] at hl
        cases hl
        exact ⟨_, rfl⟩
      · rw [loadN_tup ht _ _ hft] at hl
        refine ⟨_, Exists.choose_spec hft, fun hnil => .inr ?_⟩
        rw [hnil] at hl
        cases hl
        exact ⟨_, rfl⟩
    · rw [loadN_malformed ht _ _ hft] at hl
      cases hl

/-- C84: if the text of a file is accepted as an object (by whatever files surround it) and the file can be included as a list, it has
nothing in it: neither a field nor a parent, nor an element. -/
theorem c84_object_or_list (fs' : FS) (rt' : Rt) (o : Obj) (s : PState) (hr : fromStr fs' t rt' = .ok o s) :
    o.pairs = [] ∧ o.parent = none ∧ ((∃ i, v = .arr i .any []) ∨ ∃ i, v = .tup i [] []) := by
  obtain ⟨es, h1, h2⟩ := denotes_items fs rt hrt A u p path F b t hF h hb ht k hk v hv
  obtain ⟨d, st, h3, h4, -⟩ := c45_from_str_accepts _ _ _ _ _ hr
  obtain ⟨rfl, rfl⟩ := both_empty h3 h1
  cases h4
  exact ⟨rfl, rfl, h2 rfl⟩

/-- C84: the same for the file when it is read with `Obj::from_file`. -/
theorem c84_object_file_or_list (rt' : Rt) (o : Obj) (s : PState) (hr : fromFile fs path rt' = .ok o s) :
    o.pairs = [] ∧ o.parent = none ∧ ((∃ i, v = .arr i .any []) ∨ ∃ i, v = .tup i [] []) := by
  obtain ⟨es, h1, h2⟩ := denotes_items fs rt hrt A u p path F b t hF h hb ht k hk v hv
  obtain ⟨t', d, st, h0, h3, h4, -⟩ := c45_from_file_accepts _ _ _ _ _ _ hF.1 hr
  rw [ht] at h0
  cases h0
  obtain ⟨rfl, rfl⟩ := both_empty h3 h1
  cases h4
  exact ⟨rfl, rfl, h2 rfl⟩

end

end

/-! ## Examples -/

section
attribute [local instance] sampleUnicode

attribute [local irreducible] ReadsAt Denotes in
/-- The file `f`, with the text `k: {i: 7}`, cannot be included as an array or a tuple. -/
example (k : IncKind) (hk : k = .arr ∨ k = .tup) (v : Value) :
    ¬ Denotes sampleFiles startRt [(c!"z: 1", c!"a")] c!"m: 2" samplePlace (includeText (some k) c!"f") v := by
  intro hv
  obtain ⟨s, hr⟩ : ∃ s, fromFile sampleFiles c!"f" startRt = .ok (.mk 1 [.mk c!"k" (.obj (.mk 0 [.mk c!"i" (.int 7)] none))] none) s :=
    Res.gives_ok (by decide +kernel)
  have := c84_object_file_or_list sampleFiles startRt startRt_fine [(c!"z: 1", c!"a")] c!"m: 2" samplePlace c!"f" c!"f" c!"f" c!"k: {i: 7}"
    (sampleLeads _ rfl) (samplePlace_reads _ (noFiles_sub _)) (sampleBody 'f') rfl k hk v hv startRt _ s hr
  simp [Obj.pairs] at this

/-- A file with nothing but a comment is both. -/
def emptyFiles : FS := files [(c!"e", c!"# empty")]

example : ∃ v o s, Denotes emptyFiles startRt [] c!"m: 2" samplePlace (includeText (some .tup) c!"e") v ∧
    fromStr emptyFiles c!"# empty" startRt = .ok o s ∧ o.pairs = [] ∧ v = .tup 4 [] [] := by
  obtain ⟨s1, h1⟩ : ∃ s, fromStr emptyFiles c!"# empty" startRt = .ok (.mk 0 [] none) s := Res.gives_ok (by decide +kernel)
  obtain ⟨s2, h2⟩ : ∃ s, fromStr emptyFiles c!"m: 2\ny:<Tup \"e\">" startRt =
      .ok (.mk 5 [.mk c!"m" (.int 2), .mk c!"y" (.tup 4 [] [])] none) s := Res.gives_ok (by decide +kernel)
  refine ⟨_, _, _, ⟨c!"y", .mk 5 [.mk c!"m" (.int 2), .mk c!"y" (.tup 4 [] [])] none, sampleFieldName 'y' (by decide),
    by simp [NotNamed, samplePlace, Obj.pairs, Pair.field], ?_, rfl⟩, h1, rfl, rfl⟩
  unfold ReadsAt
  exact ⟨fun l hl => (List.not_mem_nil hl).elim, wellFormed_of_read h2, _, s2, h2, Innermost.here⟩

end

end Over

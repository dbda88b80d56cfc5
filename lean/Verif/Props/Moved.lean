import Verif.Lemmas.Moved
import Verif.Props.Include

/-!
# C76: a project can be moved
-/

namespace Over

section
variable [Unicode]

/-- C76: a file is read the same, down to the files it includes, when the same files are found by other paths. -/
theorem c76_same_files (fs fs' : FS) (R : Option Str → Option Str → Prop) (hA : FilesAlike fs fs' R) (f f' : Str) (hf : R (some f) (some f'))
    (hfile : fs.isFile f = true) (rt : Rt) : ReadAlike R (fromFile fs f rt) (fromFile fs' f' rt) := by
  have hread := hA.read _ _ hf hfile
  have hfile' : fs'.isFile f' = true := by rw [hA.isFile _ _ hf]; exact hfile
  obtain ⟨G, hG⟩ := isFile_resolve hfile
  obtain ⟨G', hG'⟩ := isFile_resolve hfile'
  unfold fromFile
  rw [hread]
  cases hr : fs.read f with
  | error m => exact .inr (.inl ⟨_, _, rfl, rfl, rfl, .inr ⟨rfl, rfl⟩⟩)
  | ok t =>
    simp only
    rw [file_bound_irrelevant fs rt hG (contents := t) (n := fs.fuel t) (m := fs.fuel t + fs'.fuel t) (by simp only [FS.fuel]; omega)
        (by simp only [FS.fuel]; omega),
      file_bound_irrelevant fs' rt hG' (contents := t) (n := fs'.fuel t) (m := fs.fuel t + fs'.fuel t) (by simp only [FS.fuel]; omega)
        (by simp only [FS.fuel]; omega)]
    have hno : ∀ (f0 : FS) (g G : Str), f0.resolve g = some G → t.length + f0.size ≤ fs.fuel t + fs'.fuel t →
        parseObjStream (parseValue f0 (fs.fuel t + fs'.fuel t)) (PState.init (some g) t rt) ≠ .oof := by
      intro f0 g G hf0 hl h
      have := @fromFileFuel_spec _ anyPanic f0 _ g t G rt hf0 (.inr True.intro) hl
      simp only [wp, h] at this
    have n1 := hno fs f G hG (by simp only [FS.fuel]; omega)
    have n2 := hno fs' f' G' hG' (by simp only [FS.fuel]; omega)
    by_cases hp : parseObjStream (parseValue fs (fs.fuel t + fs'.fuel t)) (PState.init (some f) t rt) = .panic
    · by_cases hp' : parseObjStream (parseValue fs' (fs.fuel t + fs'.fuel t)) (PState.init (some f') t rt) = .panic
      · exact .inr (.inr ⟨hp, hp'⟩)
      · exact (moved_run hA.symm _ (some f') (some f) hf (by rintro _ ⟨⟩; exact hfile') t rt hp' n2).swap
    · exact moved_run hA _ (some f) (some f') hf (by rintro _ ⟨⟩; exact hfile) t rt hp n1

/-- C76: and so is a text. -/
theorem c76_from_str (fs fs' : FS) (R : Option Str → Option Str → Prop) (hA : FilesAlike fs fs' R) (hf : R none none) (t : Str) (rt : Rt) :
    ReadAlike R (fromStr fs t rt) (fromStr fs' t rt) := by
  unfold fromStr
  rw [c23_bound_irrelevant fs t rt (fs.fuel t) (by simp only [FS.fuel]; omega),
    c23_bound_irrelevant fs' t rt (fs'.fuel t) (by simp only [FS.fuel]; omega),
    ← c23_bound_irrelevant fs t rt (fs.fuel t + fs'.fuel t) (by simp only [FS.fuel]; omega),
    ← c23_bound_irrelevant fs' t rt (fs.fuel t + fs'.fuel t) (by simp only [FS.fuel]; omega)]
  unfold fromStrFuel
  have hno : ∀ (f0 : FS), t.length + f0.size ≤ fs.fuel t + fs'.fuel t →
      parseObjStream (parseValue f0 (fs.fuel t + fs'.fuel t)) (PState.init none t rt) ≠ .oof := by
    intro f0 hl h
    have := @fromStrFuel_spec _ anyPanic f0 _ t rt hl
    simp only [wp, h] at this
  have n1 := hno fs (by simp only [FS.fuel]; omega)
  have n2 := hno fs' (by simp only [FS.fuel]; omega)
  by_cases hp : parseObjStream (parseValue fs (fs.fuel t + fs'.fuel t)) (PState.init none t rt) = .panic
  · by_cases hp' : parseObjStream (parseValue fs' (fs.fuel t + fs'.fuel t)) (PState.init none t rt) = .panic
    · exact .inr (.inr ⟨hp, hp'⟩)
    · exact (moved_run hA.symm _ none none hf (by rintro _ ⟨⟩) t rt hp' n2).swap
  · exact moved_run hA _ none none hf (by rintro _ ⟨⟩) t rt hp n1

/-- C76: a file is also read the same where there are more files. -/
theorem c76_more_files (fs fs' : FS) (R : Option Str → Option Str → Prop) (hA : Holds fs fs' R) (f f' : Str) (hf : R (some f) (some f'))
    (hfile : fs.isFile f = true) (rt : Rt) : AlsoRead R (fromFile fs f rt) (fromFile fs' f' rt) := by
  have hread := hA.read _ _ hf hfile
  have hfile' : fs'.isFile f' = true := hA.isFile _ _ hf hfile
  obtain ⟨G, hG⟩ := isFile_resolve hfile
  obtain ⟨G', hG'⟩ := isFile_resolve hfile'
  unfold fromFile
  rw [hread]
  cases hr : fs.read f with
  | error m =>
    refine ⟨?_, ?_⟩
    · intro o s h; cases h
    · intro e h; cases h; exact .inr ⟨_, rfl, rfl, .inr ⟨rfl, rfl⟩⟩
  | ok t =>
    simp only
    rw [file_bound_irrelevant fs rt hG (contents := t) (n := fs.fuel t) (m := fs.fuel t + fs'.fuel t) (by simp only [FS.fuel]; omega)
        (by simp only [FS.fuel]; omega),
      file_bound_irrelevant fs' rt hG' (contents := t) (n := fs'.fuel t) (m := fs.fuel t + fs'.fuel t) (by simp only [FS.fuel]; omega)
        (by simp only [FS.fuel]; omega)]
    have := moved_also hA.moved (fs.fuel t + fs'.fuel t) (some f) (some f') hf (by rintro _ ⟨⟩; exact hfile) t rt
    exact ⟨this.1, fun e h => (this.2 e h).imp And.right id⟩

/-- C76: a project (all of its files are in the directory `D`) is read the same when it is moved to another directory `D'`, whatever else is
there. -/
theorem c76_moved_project (fs fs' : FS) (D D' : Str) (hD : DirText D) (hD' : DirText D') (hrel : ¬ Absolute D) (hp : Project fs D)
    (hc : Copied fs D fs' D') (q : Str) (hq : Stays q) (hfile : fs.isFile (D ++ q) = true) (rt : Rt) :
    AlsoRead (OfProject D D') (fromFile fs (D ++ q) rt) (fromFile fs' (D' ++ q) rt) := by
  obtain ⟨q2, -, h2, h3⟩ := hp.only _ hfile
  exact c76_more_files fs fs' _ (hc.holds hD hD' hrel hp) _ _
    ⟨q, hq, by rw [below_segments h3 (.inl rfl)]; exact h2, .inl rfl, .inl rfl⟩ hfile rt

/-- C76: a text that includes files of the project is read the same where there are more files. -/
theorem c76_from_str_moved (fs fs' : FS) (hp : Project fs []) (hc : Copied fs [] fs' []) (t : Str) (rt : Rt) :
    AlsoRead (OfProject [] []) (fromStr fs t rt) (fromStr fs' t rt) := by
  unfold fromStr
  rw [c23_bound_irrelevant fs t rt (fs.fuel t) (by simp only [FS.fuel]; omega),
    c23_bound_irrelevant fs' t rt (fs'.fuel t) (by simp only [FS.fuel]; omega),
    ← c23_bound_irrelevant fs t rt (fs.fuel t + fs'.fuel t) (by simp only [FS.fuel]; omega),
    ← c23_bound_irrelevant fs' t rt (fs.fuel t + fs'.fuel t) (by simp only [FS.fuel]; omega)]
  have := moved_also (hc.holds .here .here (by simp [Absolute]) hp).moved (fs.fuel t + fs'.fuel t) none none ⟨rfl, rfl⟩ (by rintro _ ⟨⟩) t rt
  exact ⟨this.1, fun e h => (this.2 e h).imp And.right id⟩

/-- C76: a file is read the same when everything looks the same from the directory. -/
theorem c76_same_surroundings (fs fs' : FS) (D D' : Str) (hD : DirText D) (hD' : DirText D') (hs : SameFrom fs D fs' D') (q : Str)
    (hq : ¬ Absolute q) (hfile : fs.isFile (D ++ q) = true) (rt : Rt) :
    ReadAlike (SameName D D') (fromFile fs (D ++ q) rt) (fromFile fs' (D' ++ q) rt) :=
  c76_same_files fs fs' _ (hs.alike hD hD') _ _ (.inl ⟨q, hq, .inl rfl, .inl rfl⟩) hfile rt

/-- C76: it makes no difference by which path one gets to the directory. -/
theorem c76_other_path_to_directory (fs : FS) (D D' : Str) (hD : DirText D) (hD' : DirText D') (hne : D ≠ []) (hne' : D' ≠ [])
    (hs : ∀ q, ¬ Absolute q → fs.resolve (D' ++ q) = fs.resolve (D ++ q))
    (hdir : ∀ q, ¬ Absolute q → segments q = [] → fs.isFile (D ++ q) = false) (q : Str)
    (hq : ¬ Absolute q) (hfile : fs.isFile (D ++ q) = true) (rt : Rt) :
    ReadAlike (SameName D D') (fromFile fs (D ++ q) rt) (fromFile fs (D' ++ q) rt) := by
  have hres : ∀ g g', SamePlace D D' g g' → fs.resolve g' = fs.resolve g := by
    rintro g g' (⟨q, hq, h1, h2⟩ | ⟨-, rfl⟩)
    · rcases h1 with rfl | ⟨h, -⟩
      · rcases h2 with rfl | ⟨h, -⟩
        · exact hs q hq
        · exact absurd h hne'
      · exact absurd h hne
    · rfl
  refine c76_same_surroundings fs fs D D' hD hD' ⟨?_, ?_, ?_, ?_, ?_⟩ q hq hfile rt
  · intro g g' h; unfold FS.isFile; rw [hres g g' h]
  · intro g g' h hf
    obtain ⟨c, hc⟩ := isFile_resolve hf
    unfold FS.isFile at hf
    unfold FS.read
    rw [hres g g' h]
    rw [hc] at hf ⊢
    simp only at hf ⊢
    cases hn : StrMap.get fs.nodes c with
    | none => rw [hn] at hf; cases hf
    | some r => rfl
  · intro g g' c c' h h1 h2
    rw [hres g g' h, h1] at h2
    cases h2; rfl
  · intro g g' h h' h1 h2 _ _
    rw [hres g g' h1, hres h h' h2]
  · intro q g hq0 hq1 hg
    rcases hg with rfl | ⟨h, -⟩
    · exact hdir q hq1 hq0
    · exact absurd h hne

/-- C76: a text is read the same in working directories with the same files. -/
theorem c76_from_str_elsewhere (fs fs' : FS) (hs : SameFrom fs [] fs' []) (t : Str) (rt : Rt) :
    ReadAlike (SameName [] []) (fromStr fs t rt) (fromStr fs' t rt) :=
  c76_from_str fs fs' _ (hs.alike .here .here) ⟨rfl, rfl⟩ t rt

end

section examples
attribute [local instance] sampleUnicode

/-- A project in the directory `d`. -/
def sampleHere : FS := files [(c!"d/m", c!"y: <Str \"t\">"), (c!"d/t", c!"hi")]
/-- The same project in the directory `e/f`, with another file outside. -/
def sampleThere : FS := files [(c!"e/f/m", c!"y: <Str \"t\">"), (c!"e/f/t", c!"hi"), (c!"t", c!"no")]

theorem sampleHere_isFile {g : Str} (h : sampleHere.isFile g = true) : g = c!"d/m" ∨ g = c!"d/t" := by
  unfold FS.isFile at h
  cases hr : sampleHere.resolve g with
  | none => rw [hr] at h; cases h
  | some c =>
    have h1 := canon_of_resolve hr
    unfold sampleHere files at h1
    simp only at h1
    split at h1
    · rename_i h2
      simp only [List.any_cons, List.any_nil, Bool.or_false, Bool.or_eq_true, beq_iff_eq] at h2
      exact h2.imp Eq.symm Eq.symm
    · cases h1

theorem sampleHere_below {q g : Str} (h : sampleHere.isFile g = true) (hb : Below c!"d/" q g) :
    g = c!"d/m" ∧ q = c!"m" ∨ g = c!"d/t" ∧ q = c!"t" := by
  rcases hb with rfl | ⟨h0, -⟩
  · rcases sampleHere_isFile h with h | h
    · exact .inl ⟨h, by simpa using h⟩
    · exact .inr ⟨h, by simpa using h⟩
  · cases h0

theorem sampleThere_below {q g : Str} (hb : Below c!"e/f/" q g) : g = c!"e/f/" ++ q := by
  rcases hb with rfl | ⟨h0, -⟩
  · rfl
  · cases h0

theorem sampleProject : Project sampleHere c!"d/" where
  only g h := by
    rcases sampleHere_isFile h with rfl | rfl
    · exact ⟨c!"m", ⟨by unfold Absolute; decide, by simp [segments, splitSlash, Inside]⟩, by decide, .inl rfl⟩
    · exact ⟨c!"t", ⟨by unfold Absolute; decide, by simp [segments, splitSlash, Inside]⟩, by decide, .inl rfl⟩

theorem sampleCopied : Copied sampleHere c!"d/" sampleThere c!"e/f/" where
  isFile q g g' _ h1 h2 h := by
    have h2 := sampleThere_below h2
    rcases sampleHere_below h h1 with ⟨rfl, rfl⟩ | ⟨rfl, rfl⟩ <;> subst h2 <;> decide +kernel
  read q g g' _ h1 h2 h := by
    have h2 := sampleThere_below h2
    rcases sampleHere_below h h1 with ⟨rfl, rfl⟩ | ⟨rfl, rfl⟩ <;> subst h2 <;> rfl
  utf8 q g g' c c' _ h1 h2 h _ _ _ := rfl
  same q g g' r h h' _ h1 h2 _ h3 h4 hg hh := by
    have h2 := sampleThere_below h2
    have h4 := sampleThere_below h4
    rcases sampleHere_below hg h1 with ⟨rfl, rfl⟩ | ⟨rfl, rfl⟩ <;> rcases sampleHere_below hh h3 with ⟨rfl, rfl⟩ | ⟨rfl, rfl⟩ <;> subst h2 <;>
      subst h4 <;> decide +kernel

/-- C76: the project is read in `d`, and therefore in `e/f`. -/
example : ∃ s', fromFile sampleThere c!"e/f/m" startRt = .ok (.mk 2 [.mk c!"y" (.str c!"hi")] none) s' := by
  obtain ⟨s, hr⟩ : ∃ s, fromFile sampleHere c!"d/m" startRt = .ok (.mk 2 [.mk c!"y" (.str c!"hi")] none) s := Res.gives_ok (by decide +kernel)
  obtain ⟨s', h, -⟩ := (c76_moved_project sampleHere sampleThere c!"d/" c!"e/f/" (.sub (x := c!"d") .here ⟨by decide, by decide, by decide⟩)
    (.sub (d := c!"e/") (x := c!"f") (.sub (x := c!"e") .here ⟨by decide, by decide, by decide⟩) ⟨by decide, by decide, by decide⟩)
    (by unfold Absolute; decide) sampleProject sampleCopied c!"m" ⟨by unfold Absolute; decide, by simp [segments, splitSlash, Inside]⟩
    (by decide +kernel) startRt).1 _ s hr
  exact ⟨s', h⟩

/-- The directory `l` is a link to the directory `d`. -/
def sampleLink : FS :=
  ⟨fun p => if p = c!"d/m" ∨ p = c!"l/m" then some c!"d/m" else if p = c!"d/t" ∨ p = c!"l/t" then some c!"d/t" else none,
    [(c!"d/m", .ok c!"y: <Str \"t\">"), (c!"d/t", .ok c!"hi")], fun _ => true, fun _ => c!"No such file"⟩

/-- C76: through the link. -/
example : ReadAlike (SameName c!"d/" c!"l/") (fromFile sampleLink c!"d/m" startRt) (fromFile sampleLink c!"l/m" startRt) ∧
    ∃ s, fromFile sampleLink c!"d/m" startRt = .ok (.mk 2 [.mk c!"y" (.str c!"hi")] none) s := by
  have hp : ∀ (c : Char) (q : Str), c ≠ '/' → c ≠ '.' → pathParent (c :: '/' :: q) ≠ none := by
    intro c q h1 h2 h
    have hs : segments (c :: '/' :: q) ≠ [] := by
      have := segments_append [c] q
      rw [show c :: '/' :: q = [c] ++ '/' :: q from rfl, this]
      have : segments [c] ≠ [] := by
        have hc : splitSlash [c] = [[c]] := by unfold splitSlash; split <;> simp_all [splitSlash]
        simp [segments, hc, h2]
      simp [this]
    obtain ⟨d, hd⟩ := parent_of_steps hs
    rw [hd] at h; cases h
  have hres : ∀ (q : Str), sampleLink.resolve (c!"l/" ++ q) = sampleLink.resolve (c!"d/" ++ q) := by
    intro q
    have h1 := hp 'l' q (by decide) (by decide)
    have h2 := hp 'd' q (by decide) (by decide)
    unfold FS.resolve
    cases e1 : pathParent (c!"l/" ++ q) with
    | none => exact absurd e1 h1
    | some _ =>
      cases e2 : pathParent (c!"d/" ++ q) with
      | none => exact absurd e2 h2
      | some _ => simp [sampleLink]
  refine ⟨c76_other_path_to_directory sampleLink c!"d/" c!"l/" (.sub (x := c!"d") .here ⟨by decide, by decide, by decide⟩)
    (.sub (x := c!"l") .here ⟨by decide, by decide, by decide⟩) (by decide) (by decide) (fun q _ => hres q) ?_ c!"m"
    (by unfold Absolute; decide) (by decide +kernel) startRt, Res.gives_ok (by decide +kernel)⟩
  intro q _ hq
  cases hf : sampleLink.isFile (c!"d/" ++ q) with
  | false => rfl
  | true =>
    exfalso
    obtain ⟨c, hc⟩ := isFile_resolve hf
    have hc := canon_of_resolve hc
    have : q = c!"m" ∨ q = c!"t" := by
      simp only [sampleLink] at hc
      split at hc
      · rename_i h; left; simpa using h
      · split at hc
        · rename_i h; right; simpa using h
        · cases hc
    rcases this with rfl | rfl <;> exact absurd hq (by decide)

/-- A path without `./` at its beginning. -/
def stripHere : Str → Str
  | '.' :: '/' :: r => stripHere r
  | p => p

theorem segments_strip (p : Str) : segments (stripHere p) = segments p := by
  fun_induction stripHere p with
  | case1 r ih => rw [ih]; exact (segments_dot r).symm
  | case2 p _ => rfl

/-- The files `l` in the working directory. -/
def filesHere (l : List (Str × Str)) : FS :=
  ⟨fun p => if l.any (fun e => e.1 == stripHere p) then some (stripHere p) else none, l.map (fun e => (e.1, .ok e.2)), fun _ => true,
    fun _ => c!"No such file"⟩

theorem filesHere_resolve {l : List (Str × Str)} {g : Str} (h : segments (stripHere g) ≠ []) :
    (filesHere l).resolve g = if l.any (fun e => e.1 == stripHere g) then some (stripHere g) else none := by
  obtain ⟨d, hd⟩ := parent_of_steps (segments_strip g ▸ h)
  unfold FS.resolve
  rw [hd]
  rfl

theorem below_here {q g : Str} (h : Below [] q g) : stripHere g = stripHere q := by
  rcases h with rfl | ⟨-, rfl⟩
  · rfl
  · rfl

/-- C76: a text that includes `t` is read the same where there is another file `u`. -/
example : ∃ s', fromStr (filesHere [(c!"t", c!"hi"), (c!"u", c!"x")]) c!"y: <Str \"./t\">" startRt =
    .ok (.mk 2 [.mk c!"y" (.str c!"hi")] none) s' := by
  obtain ⟨s, hr⟩ : ∃ s, fromStr (filesHere [(c!"t", c!"hi")]) c!"y: <Str \"./t\">" startRt = .ok (.mk 2 [.mk c!"y" (.str c!"hi")] none) s :=
    Res.gives_ok (by decide +kernel)
  have hfile : ∀ g, (filesHere [(c!"t", c!"hi")]).isFile g = true → stripHere g = c!"t" := by
    intro g hg
    obtain ⟨c, hc⟩ := isFile_resolve hg
    have hc := canon_of_resolve hc
    simp only [filesHere] at hc
    split at hc
    · rename_i h
      simp only [List.any_cons, List.any_nil, Bool.or_false, beq_iff_eq] at h
      exact h.symm
    · cases hc
  have hres : ∀ (l : List (Str × Str)) g, stripHere g = c!"t" → (filesHere ((c!"t", c!"hi") :: l)).resolve g = some c!"t" := by
    intro l g hg
    rw [filesHere_resolve (by rw [hg]; decide), hg]
    simp
  have hpro : Project (filesHere [(c!"t", c!"hi")]) [] := by
    refine ⟨fun g hg => ⟨g, ⟨?_, ?_⟩, ?_, .inl rfl⟩⟩
    · intro ha
      have := hfile g hg
      unfold stripHere at this
      split at this
      · simp [Absolute] at ha
      · subst this; simp [Absolute] at ha
    · rw [← segments_strip, hfile g hg]; simp [segments, splitSlash, Inside]
    · rw [← segments_strip, hfile g hg]; decide
  have hcop : Copied (filesHere [(c!"t", c!"hi")]) [] (filesHere [(c!"t", c!"hi"), (c!"u", c!"x")]) [] := by
    have hst : ∀ q g g', Below [] q g → Below [] q g' → (filesHere [(c!"t", c!"hi")]).isFile g = true → stripHere g = c!"t" ∧ stripHere g' = c!"t" := by
      intro q g g' h1 h2 h
      have h3 := hfile g h
      exact ⟨h3, by rw [below_here h2, ← below_here h1, h3]⟩
    refine ⟨?_, ?_, fun _ _ _ _ _ _ _ _ _ _ _ _ => rfl, ?_⟩
    · intro q g g' _ h1 h2 h
      obtain ⟨h3, h4⟩ := hst q g g' h1 h2 h
      unfold FS.isFile
      rw [hres _ _ h4]
      rfl
    · intro q g g' _ h1 h2 h
      obtain ⟨h3, h4⟩ := hst q g g' h1 h2 h
      unfold FS.read
      rw [hres _ _ h4, hres _ _ h3]
      rfl
    · intro q g g' r h h' _ h1 h2 _ h3 h4 hg hh
      obtain ⟨a1, a2⟩ := hst q g g' h1 h2 hg
      obtain ⟨b1, b2⟩ := hst r h h' h3 h4 hh
      rw [hres _ _ a1, hres _ _ a2, hres _ _ b1, hres _ _ b2]
  obtain ⟨s', h, -⟩ := (c76_from_str_moved _ _ hpro hcop c!"y: <Str \"./t\">" startRt).1 _ s hr
  exact ⟨s', h⟩

end examples

end Over

import Verif.Spec.Moved

/-!
# Paths: when an include finds its directory
-/

namespace Over

theorem parent_of_resolve {fs : FS} {f c : Str} (h : fs.resolve f = some c) : (pathParent f).isSome = true := by
  unfold FS.resolve at h
  cases e : pathParent f with
  | none => rw [e] at h; cases h
  | some d => rfl

theorem canon_of_resolve {fs : FS} {f c : Str} (h : fs.resolve f = some c) : fs.canon f = some c := by
  unfold FS.resolve at h
  cases e : pathParent f with
  | none => rw [e] at h; cases h
  | some d => rw [e] at h; exact h

/-- `parent().unwrap()` succeeds for a file that has a parent, and the include is meant beside it. -/
theorem includeTarget_eq {file : Option Str} (h : ∀ f, file = some f → (pathParent f).isSome = true) (p : Str) :
    includeTarget file p = some (meantIn file p) := by
  cases file with
  | none => rfl
  | some f =>
    have := h f rfl
    simp only [includeTarget, meantIn, beside]
    cases e : pathParent f with
    | none => rw [e] at this; cases this
    | some d => simp

/-! ## Steps -/

theorem splitSlash_ne : ∀ p, splitSlash p ≠ []
  | [] => by simp [splitSlash]
  | c :: r => by
    unfold splitSlash
    split
    · simp
    · simp
    · split <;> simp

theorem splitSlash_append : ∀ a b : Str, splitSlash (a ++ '/' :: b) = splitSlash a ++ splitSlash b
  | [], b => by simp [splitSlash]
  | c :: a, b => by
    have ih := splitSlash_append a b
    by_cases hc : c = '/'
    · subst hc; simp [splitSlash, ih]
    · rw [List.cons_append, splitSlash, splitSlash, ih]
      · cases e : splitSlash a with
        | nil => exact absurd e (splitSlash_ne a)
        | cons x xs => rfl
      · simpa using fun h => absurd h hc
      · simpa using fun h => absurd h hc

theorem splitSlash_one : ∀ {x : Str}, '/' ∉ x → splitSlash x = [x]
  | [], _ => rfl
  | c :: x, h => by
    have hc : c ≠ '/' := fun e => h (by simp [e])
    rw [splitSlash, splitSlash_one fun hx => h (by simp [hx])]
    simpa using fun e => absurd e hc

theorem segments_append (a b : Str) : segments (a ++ '/' :: b) = segments a ++ segments b := by
  simp [segments, splitSlash_append]

theorem segments_nil : segments [] = [] := rfl

theorem segments_one {x : Str} (h : StepName x) : segments x = [x] := by
  simp [segments, splitSlash_one h.noSlash, h.nonempty, h.notHere]

theorem segments_trim (r : Str) : segments (trimSilent r).reverse = segments r.reverse := by
  fun_induction trimSilent r with
  | case1 => rfl
  | case2 b ih =>
    rw [ih]
    have := segments_append b.reverse []
    simpa [segments_nil] using this.symm
  | case3 => rfl
  | case4 b ih =>
    rw [ih]
    have := segments_append b.reverse ['.']
    simpa [show segments ['.'] = [] from rfl] using this.symm
  | case5 => rfl

/-- What is left after trimming ends in a step. -/
theorem trim_shape (r : Str) : trimSilent r = [] ∨ ∃ x t, StepName x ∧ trimSilent r = x.reverse ++ t ∧ (t = [] ∨ ∃ u, t = '/' :: u) := by
  fun_induction trimSilent r with
  | case1 => exact .inl rfl
  | case2 b ih => exact ih
  | case3 => exact .inl rfl
  | case4 b ih => exact ih
  | case5 b h1 h2 h3 h4 =>
    right
    refine ⟨(b.takeWhile (· != '/')).reverse, b.dropWhile (· != '/'), ⟨?_, ?_, ?_⟩, ?_, ?_⟩
    · intro h
      have := List.all_eq_true.1 (List.all_takeWhile (p := (· != '/')) (l := b)) _ (List.mem_reverse.1 h)
      simp at this
    · intro h
      cases b with
      | nil => exact h1 rfl
      | cons c b =>
        rw [List.reverse_eq_nil_iff, List.takeWhile_cons] at h
        split at h
        · cases h
        · rename_i hc
          exact h2 b (by rw [show c = '/' by simpa using hc])
    · intro h
      have h5 := congrArg List.reverse h
      rw [List.reverse_reverse] at h5
      have h6 := List.takeWhile_append_dropWhile (p := (· != '/')) (l := b)
      rw [h5] at h6
      cases h7 : b.dropWhile (· != '/') with
      | nil => rw [h7] at h6; exact h3 (by simpa using h6.symm)
      | cons c u =>
        have h8 : c = '/' := by
          have := List.head_dropWhile_not (p := (· != '/')) (l := b) (by rw [h7]; simp)
          simpa [h7] using this
        rw [h7, h8] at h6
        exact h4 u (by simpa using h6.symm)
    · simp
    · cases h7 : b.dropWhile (· != '/') with
      | nil => exact .inl rfl
      | cons c u =>
        have h8 : c = '/' := by
          have := List.head_dropWhile_not (p := (· != '/')) (l := b) (by rw [h7]; simp)
          simpa [h7] using this
        exact .inr ⟨u, by rw [h8]⟩

theorem trim_suffix (r : Str) : ∃ t, r = t ++ trimSilent r := by
  fun_induction trimSilent r with
  | case1 => exact ⟨[], rfl⟩
  | case2 b ih => obtain ⟨t, h⟩ := ih; exact ⟨'/' :: t, by rw [List.cons_append, ← h]⟩
  | case3 => exact ⟨['.'], rfl⟩
  | case4 b ih => obtain ⟨t, h⟩ := ih; exact ⟨'.' :: '/' :: t, by rw [List.cons_append, List.cons_append, ← h]⟩
  | case5 => exact ⟨[], rfl⟩

theorem dropWhile_none {y : Str} (hno : ∀ c ∈ y, c ≠ '/') : y.dropWhile (· != '/') = [] := by
  induction y with
  | nil => rfl
  | cons c y ih =>
    have hc := hno c (by simp)
    rw [List.dropWhile_cons, if_pos (by simpa using hc)]
    exact ih fun c h => hno c (by simp [h])

/-- The directory part of a body of a path: a beginning of it, with all steps but the last. -/
theorem trim_body (body : Str) : (trimSilent body.reverse = [] ∧ segments body = []) ∨
    ∃ b, trimSilent body.reverse = b ∧ b ≠ [] ∧
      (∃ t, body = (trimSilent ((b.dropWhile (· != '/')).drop 1)).reverse ++ t) ∧
      segments (trimSilent ((b.dropWhile (· != '/')).drop 1)).reverse = (segments body).dropLast := by
  have hs := segments_trim body.reverse
  rw [List.reverse_reverse] at hs
  rcases trim_shape body.reverse with h | ⟨x, t, hx, h, ht⟩
  · left
    rw [h] at hs
    exact ⟨h, hs.symm⟩
  · right
    refine ⟨_, rfl, by rw [h]; simp [hx.nonempty], ?_, ?_⟩
    · obtain ⟨t1, h1⟩ := trim_suffix body.reverse
      obtain ⟨t2, h2⟩ := trim_suffix (((trimSilent body.reverse).dropWhile (· != '/')).drop 1)
      generalize trimSilent body.reverse = b at h1 h2 ⊢
      have h3 : b = b.takeWhile (· != '/') ++ ((b.dropWhile (· != '/')).take 1 ++ (b.dropWhile (· != '/')).drop 1) := by
        rw [List.take_append_drop, List.takeWhile_append_dropWhile]
      refine ⟨(t1 ++ (b.takeWhile (· != '/') ++ ((b.dropWhile (· != '/')).take 1 ++ t2))).reverse, ?_⟩
      rw [← List.reverse_append, List.append_assoc, List.append_assoc, List.append_assoc, ← h2, ← h3, ← h1, List.reverse_reverse]
    · rw [segments_trim]
      rw [h] at hs ⊢
      have hx' : x.reverse.dropWhile (· != '/') = [] := by
        have hno : ∀ c ∈ x.reverse, c ≠ '/' := fun c hc e => hx.noSlash (by rw [← e]; simpa using hc)
        exact dropWhile_none hno
      have hd : (x.reverse ++ t).dropWhile (· != '/') = t := by
        rw [List.dropWhile_append, hx']
        rcases ht with rfl | ⟨u, rfl⟩ <;> simp
      rw [hd, ← hs]
      rcases ht with rfl | ⟨u, rfl⟩
      · simp [segments_one hx, segments_nil]
      · have := segments_append u.reverse x
        rw [segments_one hx] at this
        simp [this]

theorem startsWithCurDir_iff {p : Str} : startsWithCurDir p = true ↔ p = ['.'] ∨ ∃ r, p = '.' :: '/' :: r := by
  unfold startsWithCurDir
  split
  · simp
  · simp
  · rename_i h1 h2
    simp only [Bool.false_eq_true, false_iff, not_or, not_exists]
    exact ⟨fun h => h1 h, fun r h => h2 r h⟩

/-- The parent of a path has all steps but the last, and the same beginning. -/
theorem parent_steps {p d : Str} (h : pathParent p = some d) :
    segments d = (segments p).dropLast ∧ (Absolute d ↔ Absolute p) := by
  unfold pathParent at h
  have key : ∀ k, segments (p.drop k) = segments p → (∀ X t, p.drop k = X ++ t → segments (p.take k ++ X) = segments X ∧
      (Absolute (p.take k ++ X) ↔ Absolute p)) → pathStart p = k → segments d = (segments p).dropLast ∧ (Absolute d ↔ Absolute p) := by
    intro k h1 h2 hk
    rw [hk] at h
    rcases trim_body (p.drop k) with ⟨h3, h4⟩ | ⟨b, h3, h4, ⟨t, h5⟩, h6⟩
    · rw [h3] at h
      simp only at h
      split at h
      · rename_i hc
        cases h
        rw [h1] at h4
        rw [h4]
        refine ⟨rfl, ?_⟩
        rcases startsWithCurDir_iff.1 hc with rfl | ⟨r, rfl⟩ <;> simp [Absolute]
      · cases h
    · rw [h3] at h
      cases b with
      | nil => exact absurd rfl h4
      | cons c b =>
        cases h
        obtain ⟨h7, h8⟩ := h2 _ _ h5
        rw [h7, h6, h1]
        exact ⟨rfl, h8⟩
  by_cases ha : p.head? = some '/'
  · cases p with
    | nil => cases ha
    | cons c r =>
      cases ha
      refine key 1 ?_ ?_ (by simp [pathStart])
      · exact (segments_append [] r).symm
      · intro X t _
        exact ⟨segments_append [] X, by simp [Absolute]⟩
  · by_cases hc : startsWithCurDir p = true
    · refine key 1 ?_ ?_ (by simp [pathStart, hc])
      · rcases startsWithCurDir_iff.1 hc with rfl | ⟨r, rfl⟩
        · rfl
        · exact (segments_append [] r).trans (segments_append ['.'] r).symm
      · rcases startsWithCurDir_iff.1 hc with rfl | ⟨r, rfl⟩
        · intro X t hX
          have : X = [] := by simp at hX; exact hX.1
          subst this
          exact ⟨rfl, by simp⟩
        · intro X t hX
          cases X with
          | nil => exact ⟨rfl, by simp [Absolute]⟩
          | cons c X =>
            have : c = '/' := by
              have h := congrArg List.head? hX
              simpa using h.symm
            subst this
            exact ⟨(segments_append ['.'] X).trans (segments_append [] X).symm, by simp [Absolute]⟩
    · refine key 0 rfl ?_ (by simp [pathStart, ha, hc])
      intro X t hX
      refine ⟨rfl, ?_⟩
      simp only [List.drop_zero] at hX
      simp only [List.take_zero, List.nil_append, Absolute, ha, iff_false]
      intro h
      apply ha
      cases X with
      | nil => cases h
      | cons c X => rw [hX]; exact h

theorem join_steps {d p : Str} (hp : ¬ Absolute p) :
    segments (pathJoin d p) = segments d ++ segments p ∧ (Absolute (pathJoin d p) ↔ Absolute d) := by
  unfold pathJoin
  rw [if_neg (show ¬ (p.head? = some '/') from hp)]
  split
  · rename_i h
    refine ⟨segments_append d p, ?_⟩
    cases d with
    | nil => exact absurd rfl h.1
    | cons c d => rfl
  · rename_i h
    by_cases hd : d = []
    · subst hd
      exact ⟨rfl, by simp [Absolute] at hp ⊢; exact hp⟩
    · have hl : d.getLast? = some '/' := by
        exact Classical.byContradiction fun hl => h ⟨hd, hl⟩
      obtain ⟨d', rfl⟩ : ∃ d', d = d' ++ ['/'] := by
        rcases List.eq_nil_or_concat d with h | ⟨d', c, rfl⟩
        · exact absurd h hd
        · simp at hl; exact ⟨d', by simp [hl]⟩
      refine ⟨?_, ?_⟩
      · have h1 := segments_append d' p
        have h2 := segments_append d' []
        rw [List.append_assoc]
        rw [segments_nil, List.append_nil] at h2
        rw [h2]
        exact h1
      · cases d' with
        | nil => rfl
        | cons c d' => rfl

/-! ## Paths as they are normally written -/

theorem trim_step {x : Str} (hx : StepName x) (t : Str) :
    trimSilent (x.reverse ++ t) = x.reverse ++ t := by
  generalize hr : x.reverse ++ t = r
  have hne : x.reverse ≠ [] := by simp [hx.nonempty]
  cases hy : x.reverse with
  | nil => exact absurd hy hne
  | cons c y =>
    have hc : c ≠ '/' := fun e => hx.noSlash (by rw [← e]; have : c ∈ x.reverse := by rw [hy]; simp
                                                 simpa using this)
    rw [hy] at hr
    have hdot : c = '.' → y = [] → False := by
      intro h1 h2
      have := congrArg List.reverse hy
      rw [List.reverse_reverse, h1, h2] at this
      exact hx.notHere this
    have hslash : ∀ u, y ≠ '/' :: u := by
      rintro u rfl
      exact hx.noSlash (by have : '/' ∈ x.reverse := by rw [hy]; simp
                           simpa using this)
    unfold trimSilent
    split
    · rfl
    · simp at hr; exact absurd hr.1 hc
    · simp at hr; exact absurd hr.2.1 (fun h => hdot hr.1 h)
    · rename_i b
      simp at hr
      cases y with
      | nil => exact (hdot hr.1 rfl).elim
      | cons c' y =>
        simp at hr
        exact absurd (by rw [hr.2.1]) (hslash y)
    · rfl

theorem dirText_shape {d : Str} (h : DirText d) : ∃ k e : Str, (k = [] ∨ k = ['/']) ∧ d = k ++ e ∧ (e = [] ∨ ∃ e', e = e' ++ ['/']) ∧
    ∀ x r, StepName x → (r = [] ∨ ∃ u, r = '/' :: u) → pathStart (d ++ (x ++ r)) = k.length := by
  induction h with
  | here =>
    refine ⟨[], [], .inl rfl, rfl, .inl rfl, ?_⟩
    intro x r hx hr
    have h1 : (x ++ r).head? ≠ some '/' := by
      intro h
      cases x with
      | nil => exact hx.nonempty rfl
      | cons c x => simp at h; exact hx.noSlash (by simp [h])
    have h2 : ¬ startsWithCurDir (x ++ r) = true := by
      rw [startsWithCurDir_iff]
      have hlen : ∀ t, x ++ r = '.' :: t → (t = [] ∨ ∃ u, t = '/' :: u) → False := by
        intro t ht ht'
        cases x with
        | nil => exact hx.nonempty rfl
        | cons c x =>
          simp at ht
          cases x with
          | nil => exact hx.notHere (by rw [ht.1])
          | cons c' x =>
            rcases ht' with rfl | ⟨u, rfl⟩
            · simp at ht
            · simp at ht; exact hx.noSlash (by simp [ht.2.1])
      rintro (h | ⟨u, h⟩)
      · exact hlen _ h (.inl rfl)
      · exact hlen _ h (.inr ⟨u, rfl⟩)
    rw [List.nil_append, pathStart, if_neg (by simp only [not_or]; exact ⟨h1, h2⟩)]
    rfl
  | root =>
    refine ⟨['/'], [], .inr rfl, rfl, .inl rfl, ?_⟩
    intro x r _ _
    simp [pathStart]
  | @sub d x hd hx ih =>
    obtain ⟨k, e, h1, rfl, h3, h4⟩ := ih
    refine ⟨k, e ++ x ++ ['/'], h1, by simp, .inr ⟨_, rfl⟩, ?_⟩
    intro y r _ _
    have := h4 x ('/' :: (y ++ r)) hx (.inr ⟨_, rfl⟩)
    simpa using this

/-- The parent of a file `dir/name`. -/
theorem parent_tidy {d x : Str} (hd : DirText d) (hx : StepName x) :
    pathParent (d ++ x) = some (if d = [] ∨ d = ['/'] then d else d.dropLast) := by
  cases hd with
  | here =>
    obtain ⟨k, e, h1, h2, -, h4⟩ := dirText_shape .here
    have hs : pathStart x = 0 := by
      have := h4 x [] hx (.inl rfl)
      have hk : k = [] := (List.append_eq_nil_iff.1 h2.symm).1
      simpa [hk] using this
    have ht : trimSilent x.reverse = x.reverse := by simpa using trim_step hx []
    have hdw : x.reverse.dropWhile (· != '/') = [] := by
      have hno : ∀ c ∈ x.reverse, c ≠ '/' := fun c hc e => hx.noSlash (by rw [← e]; simpa using hc)
      exact dropWhile_none hno
    unfold pathParent
    simp only [List.nil_append, hs, List.drop_zero, ht, List.take_zero]
    cases hr : x.reverse with
    | nil => exact absurd (by simpa using hr) hx.nonempty
    | cons c y =>
      rw [hr] at hdw
      simp only [hdw]
      rfl
  | root =>
    have hs : pathStart ('/' :: x) = 1 := by simp [pathStart]
    have ht : trimSilent x.reverse = x.reverse := by simpa using trim_step hx []
    have hdw : x.reverse.dropWhile (· != '/') = [] := by
      have hno : ∀ c ∈ x.reverse, c ≠ '/' := fun c hc e => hx.noSlash (by rw [← e]; simpa using hc)
      exact dropWhile_none hno
    unfold pathParent
    simp only [List.cons_append, List.nil_append, hs, List.drop_succ_cons, List.drop_zero, ht]
    cases hr : x.reverse with
    | nil => exact absurd (by simpa using hr) hx.nonempty
    | cons c y =>
      rw [hr] at hdw
      simp only [hdw]
      rfl
  | @sub d y hd hy =>
    obtain ⟨k, e, h1, rfl, h3, h4⟩ := dirText_shape hd
    have hs : pathStart (k ++ e ++ y ++ ['/'] ++ x) = k.length := by
      have := h4 y ('/' :: x) hy (.inr ⟨_, rfl⟩)
      simpa using this
    have htk : (k ++ e ++ y ++ ['/'] ++ x).take k.length = k := by simp
    have hdk : (k ++ e ++ y ++ ['/'] ++ x).drop k.length = e ++ y ++ ['/'] ++ x := by simp
    have ht : trimSilent (e ++ y ++ ['/'] ++ x).reverse = x.reverse ++ '/' :: (e ++ y).reverse := by
      rw [← trim_step hx ('/' :: (e ++ y).reverse)]
      congr 1
      simp
    have hno : ∀ c ∈ x.reverse, c ≠ '/' := fun c hc e => hx.noSlash (by rw [← e]; simpa using hc)
    have hdw : (x.reverse ++ '/' :: (e ++ y).reverse).dropWhile (· != '/') = '/' :: (e ++ y).reverse := by
      rw [List.dropWhile_append, dropWhile_none hno]
      simp
    have hy' : trimSilent (e ++ y).reverse = (e ++ y).reverse := by
      rw [List.reverse_append]
      exact trim_step hy _
    have hne : ¬ (k ++ e ++ y ++ ['/'] = [] ∨ k ++ e ++ y ++ ['/'] = ['/']) := by
      rintro (h | h)
      · simp at h
      · have := congrArg List.dropLast h
        simp at this
        exact hy.nonempty this.2.2
    unfold pathParent
    rw [hs, htk, hdk, ht, if_neg hne]
    cases hr : x.reverse with
    | nil => exact absurd (by simpa using hr) hx.nonempty
    | cons c z =>
      rw [hr] at hdw
      simp only [List.cons_append] at hdw ⊢
      simp only [hdw, List.drop_succ_cons, List.drop_zero, hy', List.reverse_reverse]
      simp

theorem beside_tidy {d x p : Str} (hd : DirText d) (hx : StepName x) (hp : ¬ Absolute p) : beside (d ++ x) p = d ++ p := by
  unfold beside
  rw [parent_tidy hd hx]
  simp only [Option.getD_some, pathJoin]
  rw [if_neg (show ¬ (p.head? = some '/') from hp)]
  cases hd with
  | here => simp
  | root => simp
  | @sub d y hd hy =>
    have hne : ¬ (d ++ y ++ ['/'] = [] ∨ d ++ y ++ ['/'] = ['/']) := by
      rintro (h | h)
      · simp at h
      · have := congrArg List.dropLast h
        simp at this
        exact hy.nonempty this.2
    rw [if_neg hne, if_pos]
    · simp
    · simp only [List.dropLast_concat]
      refine ⟨by simp [hy.nonempty], ?_⟩
      intro h
      rw [List.getLast?_append] at h
      cases hl : y.getLast? with
      | none => exact hy.nonempty (by simpa using hl)
      | some c =>
        rw [hl] at h
        cases h
        exact hy.noSlash (List.mem_of_getLast? hl)

theorem beside_absolute {f p : Str} (hp : Absolute p) : beside f p = p := by
  unfold beside pathJoin
  rw [if_pos (show p.head? = some '/' from hp)]

theorem parent_of_steps {f : Str} (h : segments f ≠ []) : ∃ d, pathParent f = some d := by
  unfold pathParent
  cases e : trimSilent (f.drop (pathStart f)).reverse with
  | nil =>
    exfalso
    apply h
    rcases trim_body (f.drop (pathStart f)) with ⟨-, h1⟩ | ⟨b, h1, h2, -⟩
    · revert h1
      unfold pathStart
      split
      · rename_i hc
        rcases hc with hc | hc
        · cases f with
          | nil => cases hc
          | cons c r =>
            cases hc
            intro h1
            rw [show '/' :: r = [] ++ '/' :: r from rfl, segments_append]
            exact h1
        · rcases startsWithCurDir_iff.1 hc with rfl | ⟨r, rfl⟩
          · intro _; rfl
          · intro h1
            rw [show '.' :: '/' :: r = ['.'] ++ '/' :: r from rfl, segments_append]
            have : segments ('/' :: r) = segments [] ++ segments r := segments_append [] r
            rw [show segments ['.'] = segments [] from rfl, ← this]
            exact h1
      · exact id
    · rw [e] at h1; exact absurd h1.symm h2
  | cons c b => exact ⟨_, rfl⟩

theorem beside_steps {f p : Str} (hf : segments f ≠ []) (hp : ¬ Absolute p) :
    segments (beside f p) = (segments f).dropLast ++ segments p ∧ (Absolute (beside f p) ↔ Absolute f) := by
  obtain ⟨d, hd⟩ := parent_of_steps hf
  obtain ⟨h1, h2⟩ := parent_steps hd
  obtain ⟨h3, h4⟩ := join_steps (d := d) hp
  unfold beside
  rw [hd]
  exact ⟨by rw [Option.getD_some, h3, h1], h4.trans h2⟩


/-! ## Paths below a directory -/

theorem trim_append {a b : Str} (h : trimSilent a ≠ []) : trimSilent (a ++ b) = trimSilent a ++ b := by
  fun_induction trimSilent a with
  | case1 => exact absurd rfl h
  | case2 a ih => rw [List.cons_append, trimSilent]; exact ih h
  | case3 => exact absurd rfl h
  | case4 a ih => rw [List.cons_append, List.cons_append, trimSilent]; exact ih h
  | case5 a h1 h2 h3 h4 =>
    cases a with
    | nil => exact absurd rfl h1
    | cons c a =>
      rw [List.cons_append, trimSilent]
      · exact fun e => by cases e
      · intro b' e; cases e; exact h2 _ rfl
      · intro e
        obtain ⟨rfl, e2⟩ := List.cons.inj e
        obtain ⟨rfl, -⟩ := List.append_eq_nil_iff.1 e2
        exact h3 rfl
      · intro b' e
        obtain ⟨rfl, e2⟩ := List.cons.inj e
        cases a with
        | nil => exact h3 rfl
        | cons c' a =>
          obtain ⟨rfl, -⟩ := List.cons.inj e2
          exact h4 _ rfl

theorem trim_append_nil {a b : Str} (h : trimSilent a = []) (hb : b = [] ∨ ∃ u, b = '/' :: u) : trimSilent (a ++ b) = trimSilent b := by
  fun_induction trimSilent a with
  | case1 => rfl
  | case2 a ih => rw [List.cons_append, trimSilent]; exact ih h
  | case3 =>
    rcases hb with rfl | ⟨u, rfl⟩
    · rfl
    · rw [List.cons_append, List.nil_append, trimSilent, trimSilent]
  | case4 a ih => rw [List.cons_append, List.cons_append, trimSilent]; exact ih h
  | case5 a h1 => exact absurd h h1

/-- The steps of a path but the last. -/
def upTo (q : Str) : Str := (trimSilent (((trimSilent q.reverse).dropWhile (· != '/')).drop 1)).reverse

/-- The path `p` as meant in the file at the relative path `q`. -/
def under (q p : Str) : Str := if upTo q = [] then p else upTo q ++ '/' :: p

theorem upTo_end (q : Str) : upTo q = [] ∨ (upTo q ≠ [] ∧ (upTo q).getLast? ≠ some '/') := by
  unfold upTo
  rcases trim_shape (((trimSilent q.reverse).dropWhile (· != '/')).drop 1) with h | ⟨x, t, hx, h, -⟩
  · left; rw [h]; rfl
  · right
    rw [h]
    refine ⟨by simp [hx.nonempty], ?_⟩
    rw [List.reverse_append, List.reverse_reverse]
    intro e
    rw [List.getLast?_append] at e
    cases hl : x.getLast? with
    | none => exact hx.nonempty (by simpa using hl)
    | some c => rw [hl] at e; cases e; exact hx.noSlash (List.mem_of_getLast? hl)

theorem under_relative {q p : Str} (hq : ¬ Absolute q) (hp : ¬ Absolute p) : ¬ Absolute (under q p) := by
  unfold under
  split
  · exact hp
  · rename_i hne
    intro h
    apply hq
    have hpre : ∃ t, q = upTo q ++ t := by
      rcases trim_body q with ⟨h1, -⟩ | ⟨b, h1, -, h2, -⟩
      · exact absurd (by simp [upTo, h1, trimSilent]) hne
      · obtain ⟨t, ht⟩ := h2
        refine ⟨t, ?_⟩
        unfold upTo
        rw [h1]
        exact ht
    obtain ⟨t, ht⟩ := hpre
    cases e : upTo q with
    | nil => exact absurd e hne
    | cons c r =>
      rw [e] at h ht
      unfold Absolute at h ⊢
      rw [ht]
      simpa using h

theorem trim_of_steps {q : Str} (h : segments q ≠ []) : trimSilent q.reverse ≠ [] := by
  intro e
  have := segments_trim q.reverse
  rw [e, List.reverse_reverse] at this
  exact h this.symm

/-- The body of a path: `e ++ q`, where `e` is nothing or ends with a slash. -/
theorem parent_body {k e q : Str} (hs : pathStart (k ++ (e ++ q)) = k.length) (he : e = [] ∨ ∃ e', e = e' ++ ['/'])
    (hq : segments q ≠ []) : pathParent (k ++ (e ++ q)) =
      some (k ++ if upTo q = [] then (trimSilent (e.reverse.drop 1)).reverse else e ++ upTo q) := by
  have hne := trim_of_steps hq
  have htk : (k ++ (e ++ q)).take k.length = k := by simp
  have hdk : (k ++ (e ++ q)).drop k.length = e ++ q := by simp
  have he' : e.reverse = [] ∨ ∃ u, e.reverse = '/' :: u := by
    rcases he with rfl | ⟨e', rfl⟩
    · exact .inl rfl
    · exact .inr ⟨e'.reverse, by simp⟩
  have hb : trimSilent (e ++ q).reverse = trimSilent q.reverse ++ e.reverse := by
    rw [List.reverse_append, trim_append hne]
  have hd : (trimSilent q.reverse ++ e.reverse).dropWhile (· != '/') = (trimSilent q.reverse).dropWhile (· != '/') ++ e.reverse := by
    rw [List.dropWhile_append]
    split
    · rename_i h
      rw [List.isEmpty_iff.1 h]
      rcases he' with h | ⟨u, h⟩ <;> simp [h]
    · rfl
  have hr : trimSilent (((trimSilent q.reverse).dropWhile (· != '/') ++ e.reverse).drop 1) =
      if upTo q = [] then trimSilent (e.reverse.drop 1) else (upTo q).reverse ++ e.reverse := by
    unfold upTo
    cases hw : (trimSilent q.reverse).dropWhile (· != '/') with
    | nil => simp [trimSilent]
    | cons c u =>
      simp only [List.cons_append, List.drop_succ_cons, List.drop_zero, List.reverse_eq_nil_iff, List.reverse_reverse]
      split
      · rename_i h
        rw [trim_append_nil h he']
        rcases he' with h | ⟨u, h⟩
        · rw [h]; rfl
        · rw [h]; rw [trimSilent]; rfl
      · rename_i h
        rw [trim_append h]
  unfold pathParent
  rw [hs, htk, hdk, hb]
  cases hr0 : trimSilent q.reverse with
  | nil => exact absurd hr0 hne
  | cons c z =>
    rw [hr0] at hd hr
    simp only [List.cons_append] at hd ⊢
    simp only [hd, hr]
    split <;> simp

theorem upTo_append {e q : Str} (he : e = [] ∨ ∃ e', e = e' ++ ['/']) (hq : segments q ≠ []) :
    upTo (e ++ q) = if upTo q = [] then (trimSilent (e.reverse.drop 1)).reverse else e ++ upTo q := by
  have hne := trim_of_steps hq
  have he' : e.reverse = [] ∨ ∃ u, e.reverse = '/' :: u := by
    rcases he with rfl | ⟨e', rfl⟩
    · exact .inl rfl
    · exact .inr ⟨e'.reverse, by simp⟩
  have hb : trimSilent (e ++ q).reverse = trimSilent q.reverse ++ e.reverse := by
    rw [List.reverse_append, trim_append hne]
  have hd : (trimSilent q.reverse ++ e.reverse).dropWhile (· != '/') = (trimSilent q.reverse).dropWhile (· != '/') ++ e.reverse := by
    rw [List.dropWhile_append]
    split
    · rename_i h
      rw [List.isEmpty_iff.1 h]
      rcases he' with h | ⟨u, h⟩ <;> simp [h]
    · rfl
  unfold upTo
  rw [hb, hd]
  cases hw : (trimSilent q.reverse).dropWhile (· != '/') with
  | nil => simp [trimSilent]
  | cons c u =>
    simp only [List.cons_append, List.drop_succ_cons, List.drop_zero, List.reverse_eq_nil_iff]
    split
    · rename_i h
      rw [trim_append_nil h he']
      rcases he' with h | ⟨u, h⟩
      · rw [h]; rfl
      · rw [h]; rw [trimSilent]; rfl
    · rename_i h
      rw [trim_append h]
      simp

theorem beside_dot {q p : Str} (hq : segments q ≠ []) (hp : ¬ Absolute p) : beside (c!"./" ++ q) p = c!"./" ++ under q p := by
  have h := parent_body (k := ['.']) (e := ['/']) (q := q) (by simp [pathStart, startsWithCurDir]) (.inr ⟨[], rfl⟩) hq
  have e : pathParent (c!"./" ++ q) = _ := h
  unfold beside
  rw [e]
  unfold under pathJoin
  rw [if_neg (show ¬ (p.head? = some '/') from hp)]
  rcases upTo_end q with h0 | ⟨h0, h1⟩
  · simp [h0, trimSilent]
  · rw [if_neg h0, if_neg h0, Option.getD_some, if_pos]
    · simp
    · refine ⟨by simp, ?_⟩
      intro h
      apply h1
      rw [List.getLast?_append, List.getLast?_append] at h
      cases hl : (upTo q).getLast? with
      | none => exact absurd (by simpa using hl) h0
      | some c => rw [hl] at h; exact h

/-- Included beside a file below the directory `D`. -/
theorem beside_below {D q p g : Str} (hD : DirText D) (hq : ¬ Absolute q) (hs : segments q ≠ []) (hp : ¬ Absolute p) (h : Below D q g) :
    Below D (under q p) (beside g p) := by
  rcases h with rfl | ⟨rfl, rfl⟩
  · have key : ∀ k e : Str, D = k ++ e → (e = [] ∨ ∃ e', e = e' ++ ['/'] ∧ trimSilent e'.reverse = e'.reverse ∧ e' ≠ [] ∧ e'.getLast? ≠ some '/') →
        pathStart (k ++ (e ++ q)) = k.length → (k = [] ∨ k = ['/']) → beside (D ++ q) p = D ++ under q p := by
      rintro k e rfl he hst hk
      have h := parent_body hst (by
        rcases he with rfl | ⟨e', rfl, -⟩
        · exact .inl rfl
        · exact .inr ⟨e', rfl⟩) hs
      unfold beside
      rw [List.append_assoc, h]
      unfold under pathJoin
      rw [if_neg (show ¬ (p.head? = some '/') from hp)]
      rcases upTo_end q with h0 | ⟨h0, h1⟩
      · simp only [h0, if_true, Option.getD_some]
        rcases he with rfl | ⟨e', rfl, he1, he2, he3⟩
        · rcases hk with rfl | rfl <;> simp [trimSilent]
        · simp only [List.reverse_append, List.reverse_cons, List.reverse_nil, List.nil_append, List.cons_append, List.drop_succ_cons,
            List.drop_zero, he1, List.reverse_reverse]
          rw [if_pos]
          · simp
          · refine ⟨by simp [he2], ?_⟩
            intro h
            apply he3
            rw [List.getLast?_append] at h
            cases hl : e'.getLast? with
            | none => exact absurd (by simpa using hl) he2
            | some c => rw [hl] at h; exact h
      · rw [if_neg h0, if_neg h0, Option.getD_some, if_pos]
        · simp
        · refine ⟨by simp [h0], ?_⟩
          intro h
          apply h1
          rw [List.getLast?_append, List.getLast?_append] at h
          cases hl : (upTo q).getLast? with
          | none => exact absurd (by simpa using hl) h0
          | some c => rw [hl] at h; exact h
    cases hD with
    | here =>
      by_cases hc : startsWithCurDir q = true
      · rcases startsWithCurDir_iff.1 hc with rfl | ⟨r, rfl⟩
        · exact absurd rfl hs
        · have hr : segments r ≠ [] := by
            rw [show '.' :: '/' :: r = ['.'] ++ '/' :: r from rfl, segments_append] at hs
            exact hs
          have hb := beside_dot hr hp
          have hu : upTo ('.' :: '/' :: r) = if upTo r = [] then [] else '.' :: '/' :: upTo r := by
            have := upTo_append (e := ['.', '/']) (q := r) (.inr ⟨['.'], rfl⟩) hr
            simpa [trimSilent] using this
          change Below [] _ (beside (c!"./" ++ r) p)
          rw [hb]
          unfold under
          rw [hu]
          by_cases h0 : upTo r = []
          · rw [if_pos h0, if_pos rfl, if_pos h0]
            exact .inr ⟨rfl, rfl⟩
          · rw [if_neg h0, if_neg h0, if_neg (by simp)]
            exact .inl rfl
      · refine .inl (key [] [] rfl (.inl rfl) ?_ (.inl rfl))
        simp only [List.nil_append, pathStart, List.length_nil]
        rw [if_neg]
        rintro (h | h)
        · exact hq h
        · exact hc h
    | root => exact .inl (key ['/'] [] rfl (.inl rfl) (by simp [pathStart]) (.inr rfl))
    | @sub d x hd hx =>
      obtain ⟨k, e, h1, rfl, h3, h4⟩ := dirText_shape hd
      have := h4 x ('/' :: q) hx (.inr ⟨_, rfl⟩)
      refine .inl (key k (e ++ x ++ ['/']) (by simp) (.inr ⟨e ++ x, rfl, ?_, by simp [hx.nonempty], ?_⟩) (by simpa using this) h1)
      · rw [List.reverse_append]; exact trim_step hx _
      · intro h
        rw [List.getLast?_append] at h
        cases hl : x.getLast? with
        | none => exact hx.nonempty (by simpa using hl)
        | some c => rw [hl] at h; cases h; exact hx.noSlash (List.mem_of_getLast? hl)
  · exact .inr ⟨rfl, beside_dot hs hp⟩

/-- Files that look the same from two directories. -/
theorem SameFrom.alike {fs fs' : FS} {D D' : Str} (h : SameFrom fs D fs' D') (hD : DirText D) (hD' : DirText D') :
    FilesAlike fs fs' (SameName D D') where
  kind f f' hf := by cases f <;> cases f' <;> simp_all [SameName]
  meant f f' p hf hfile := by
    by_cases hp : Absolute p
    · have hm : ∀ f, meantIn f p = p := by
        intro f
        cases f with
        | none => rfl
        | some f => exact beside_absolute hp
      rw [hm, hm]
      exact .inr ⟨hp, rfl⟩
    · cases f with
      | none =>
        cases f' with
        | some _ => exact hf.elim
        | none => exact .inl ⟨p, hp, .inl (by rw [hf.1]; rfl), .inl (by rw [hf.2]; rfl)⟩
      | some g =>
        cases f' with
        | none => exact hf.elim
        | some g' =>
          have hfile := hfile g rfl
          rcases hf with ⟨q, hq, h1, h2⟩ | ⟨ha, hgg⟩
          · by_cases hs : segments q = []
            · rw [h.noFile q g hs hq h1] at hfile; cases hfile
            · exact .inl ⟨under q p, under_relative hq hp, beside_below hD hq hs hp h1, beside_below hD' hq hs hp h2⟩
          · obtain ⟨c, hc⟩ : ∃ c, fs.resolve g = some c := by
              unfold FS.isFile at hfile
              cases e : fs.resolve g with
              | none => rw [e] at hfile; cases hfile
              | some c => exact ⟨c, rfl⟩
            obtain ⟨d, hd⟩ := Option.isSome_iff_exists.1 (parent_of_resolve hc)
            subst hgg
            refine .inr ⟨?_, rfl⟩
            simp only [meantIn, beside, hd, Option.getD_some]
            exact ((join_steps hp).2.trans (parent_steps hd).2).2 ha
  isFile g g' hg := h.isFile g g' hg
  read g g' hg := h.read g g' hg
  utf8 g g' c c' hg := h.utf8 g g' c c' hg
  same g g' k k' h1 h2 := h.same g g' k k' h1 h2

theorem segments_dot (q : Str) : segments (c!"./" ++ q) = segments q := by
  have := segments_append ['.'] q
  exact this

theorem below_segments {D q r g : Str} (h : Below D q g) (h' : Below D r g) : segments r = segments q := by
  rcases h with rfl | ⟨rfl, rfl⟩ <;> rcases h' with h' | ⟨h0, h'⟩
  · rw [List.append_cancel_left h']
  · subst h0
    rw [List.nil_append] at h'
    rw [h', segments_dot]
  · rw [List.nil_append] at h'
    rw [← h', segments_dot]
  · rw [List.append_cancel_left h']

theorem below_relative {D q g : Str} (hD : ¬ Absolute D) (hq : ¬ Absolute q) (h : Below D q g) : ¬ Absolute g := by
  rcases h with rfl | ⟨rfl, rfl⟩
  · unfold Absolute at *
    cases D with
    | nil => simpa using hq
    | cons c D => simpa using hD
  · simp [Absolute]

/-- A project and a copy of it. -/
theorem Copied.holds {fs fs' : FS} {D D' : Str} (hD : DirText D) (hD' : DirText D') (hrel : ¬ Absolute D) (hp : Project fs D)
    (hc : Copied fs D fs' D') : Holds fs fs' (OfProject D D') where
  kind f f' hf := by cases f <;> cases f' <;> simp_all [OfProject]
  meant f f' p hf hfile hin := by
    cases f with
    | none =>
      cases f' with
      | some _ => exact hf.elim
      | none =>
        obtain ⟨rfl, rfl⟩ := hf
        obtain ⟨q2, hq2, hs2, h3⟩ := hp.only _ hin
        exact ⟨q2, hq2, hs2, h3, h3⟩
    | some g =>
      cases f' with
      | none => exact hf.elim
      | some g' =>
        obtain ⟨q, hq, hs, h1, h2⟩ := hf
        obtain ⟨q2, hq2, hs2, h3⟩ := hp.only _ hin
        simp only [meantIn] at h3 ⊢
        by_cases hpa : Absolute p
        · rw [beside_absolute hpa] at h3
          exact absurd hpa (below_relative hrel hq2.1 h3)
        · have h4 := beside_below hD hq.1 hs hpa h1
          have h5 := below_segments h3 h4
          exact ⟨under q p, ⟨under_relative hq.1 hpa, by rw [h5]; exact hq2.2⟩, by rw [h5]; exact hs2, h4, beside_below hD' hq.1 hs hpa h2⟩
  isFile g g' hg hf := by obtain ⟨q, hq, -, h1, h2⟩ := hg; exact hc.isFile q g g' hq h1 h2 hf
  read g g' hg hf := by obtain ⟨q, hq, -, h1, h2⟩ := hg; exact hc.read q g g' hq h1 h2 hf
  utf8 g g' c c' hg hf h1 h2 h3 := by
    obtain ⟨q, hq, -, h4, h5⟩ := hg
    exact hc.utf8 q g g' c c' hq h4 h5 hf h1 h2 h3
  same g g' h h' hg hh h1 h2 := by
    obtain ⟨q, hq, -, h3, h4⟩ := hg
    obtain ⟨r, hr, -, h5, h6⟩ := hh
    exact hc.same q g g' r h h' hq h3 h4 hr h5 h6 h1 h2

end Over

import Verif.Lemmas.Place
import Verif.Props.Operators
import Verif.Props.Types
import Verif.Spec.Laws

/-! # Laws of operations, on values and then at places -/

namespace Over

/-! ## Numbers -/

/-- A number, and whether it is a Frac. -/
inductive Num : Value → Rat → Bool → Prop
  | int (i : Int) : Num (.int i) i false
  | frac (q : Rat) : Num (.frac q) q true

theorem Num.det {a : Value} {x y : Rat} {f g : Bool} (h : Num a x f) (h' : Num a y g) : x = y ∧ f = g := by
  cases h <;> cases h' <;> exact ⟨rfl, rfl⟩

theorem Num.eq {a b : Value} {x : Rat} {f : Bool} (h : Num a x f) (h' : Num b x f) : a = b := by
  cases h with
  | int i =>
    generalize hx : (i : Rat) = x at h'
    cases h' with
    | int j => rw [Rat.intCast_inj.1 hx]
  | frac q => cases h'; rfl

theorem Num.isNumber {a : Value} {x : Rat} {f : Bool} (h : Num a x f) : IsNumber a x := by
  cases h <;> constructor

theorem Num.some_frac_left {a b : Value} {x : Rat} (h : Num a x true) : SomeFrac a b := by
  cases h; exact .inl ⟨_, rfl⟩

theorem Num.some_frac_right {a b : Value} {x : Rat} (h : Num b x true) : SomeFrac a b := by
  cases h; exact .inr ⟨_, rfl⟩

theorem num_of {a : Value} {x : Rat} (h : IsNumber a x) : ∃ f, Num a x f := by
  cases h
  · exact ⟨_, .int _⟩
  · exact ⟨_, .frac _⟩

theorem someFrac_num {a b : Value} {x y : Rat} (hs : SomeFrac a b) (ha : IsNumber a x) (hb : IsNumber b y) :
    ∃ f g, Num a x f ∧ Num b y g ∧ (f || g) = true := by
  obtain ⟨f, hf⟩ := num_of ha
  obtain ⟨g, hg⟩ := num_of hb
  refine ⟨f, g, hf, hg, ?_⟩
  rcases hs with ⟨q, rfl⟩ | ⟨q, rfl⟩
  · cases hf; rfl
  · cases hg; simp

theorem add_num {a b : Value} {x y : Rat} {f g : Bool} (ha : Num a x f) (hb : Num b y g) :
    ∃ v, OpTable .plus a b (.value v) ∧ Num v (x + y) (f || g) := by
  cases f <;> cases g
  · cases ha; cases hb; exact ⟨_, .addInt _ _, by rw [← Rat.intCast_add]; exact .int _⟩
  · exact ⟨_, .addFrac hb.some_frac_right ha.isNumber hb.isNumber, .frac _⟩
  · exact ⟨_, .addFrac ha.some_frac_left ha.isNumber hb.isNumber, .frac _⟩
  · exact ⟨_, .addFrac ha.some_frac_left ha.isNumber hb.isNumber, .frac _⟩

theorem sub_num {a b : Value} {x y : Rat} {f g : Bool} (ha : Num a x f) (hb : Num b y g) :
    ∃ v, OpTable .minus a b (.value v) ∧ Num v (x - y) (f || g) := by
  cases f <;> cases g
  · cases ha; cases hb; exact ⟨_, .subInt _ _, by rw [← Rat.intCast_sub]; exact .int _⟩
  · exact ⟨_, .subFrac hb.some_frac_right ha.isNumber hb.isNumber, .frac _⟩
  · exact ⟨_, .subFrac ha.some_frac_left ha.isNumber hb.isNumber, .frac _⟩
  · exact ⟨_, .subFrac ha.some_frac_left ha.isNumber hb.isNumber, .frac _⟩

theorem mul_num {a b : Value} {x y : Rat} {f g : Bool} (ha : Num a x f) (hb : Num b y g) :
    ∃ v, OpTable .mult a b (.value v) ∧ Num v (x * y) (f || g) := by
  cases f <;> cases g
  · cases ha; cases hb; exact ⟨_, .mulInt _ _, by rw [← Rat.intCast_mul]; exact .int _⟩
  · exact ⟨_, .mulFrac hb.some_frac_right ha.isNumber hb.isNumber, .frac _⟩
  · exact ⟨_, .mulFrac ha.some_frac_left ha.isNumber hb.isNumber, .frac _⟩
  · exact ⟨_, .mulFrac ha.some_frac_left ha.isNumber hb.isNumber, .frac _⟩

/-- What a product can be. -/
theorem mul_inv {a b v : Value} (h : OpTable .mult a b (.value v)) :
    ∃ x y f g, Num a x f ∧ Num b y g ∧ Num v (x * y) (f || g) := by
  cases h with
  | mulInt x y => exact ⟨_, _, _, _, .int _, .int _, by rw [← Rat.intCast_mul]; exact .int _⟩
  | mulFrac hs h1 h2 =>
    obtain ⟨f, g, h3, h4, h5⟩ := someFrac_num hs h1 h2
    exact ⟨_, _, _, _, h3, h4, by rw [h5]; exact .frac _⟩

/-- What a difference can be. -/
theorem sub_inv {a b v : Value} (h : OpTable .minus a b (.value v)) :
    ∃ x y f g, Num a x f ∧ Num b y g ∧ Num v (x - y) (f || g) := by
  cases h with
  | subInt x y => exact ⟨_, _, _, _, .int _, .int _, by rw [← Rat.intCast_sub]; exact .int _⟩
  | subFrac hs h1 h2 =>
    obtain ⟨f, g, h3, h4, h5⟩ := someFrac_num hs h1 h2
    exact ⟨_, _, _, _, h3, h4, by rw [h5]; exact .frac _⟩

/-- What a quotient can be. -/
theorem div_inv {a b v : Value} (h : OpTable .div a b (.value v)) :
    ∃ x y f g, Num a x f ∧ Num b y g ∧ y ≠ 0 ∧ Num v (x / y) true := by
  cases h with
  | div h1 h2 h3 =>
    obtain ⟨f, h4⟩ := num_of h1
    obtain ⟨g, h5⟩ := num_of h2
    exact ⟨_, _, _, _, h4, h5, h3, .frac _⟩

/-- What a sum can be. -/
inductive SumOf : Value → Value → Value → Prop
  | num {a b v : Value} {x y : Rat} {f g : Bool} : Num a x f → Num b y g → Num v (x + y) (f || g) → SumOf a b v
  | str (s t : Str) : SumOf (.str s) (.str t) (.str (s ++ t))
  | arr {i j k : Nat} {s t u : Ty} {xs ys : List Value} {m : Bool} : Ty.mostSpecific s t = some (u, m) →
      SumOf (.arr i s xs) (.arr j t ys) (.arr k u (xs ++ ys))

theorem add_inv {a b v : Value} (h : OpTable .plus a b (.value v)) : SumOf a b v := by
  cases h with
  | addInt x y => exact .num (.int _) (.int _) (by rw [← Rat.intCast_add]; exact .int _)
  | addFrac hs h1 h2 =>
    obtain ⟨f, g, h3, h4, h5⟩ := someFrac_num hs h1 h2
    exact .num h3 h4 (by rw [h5]; exact .frac _)
  | concatStr s t => exact .str s t
  | concatArr hl => obtain ⟨m, hm⟩ := lcr_pair.1 hl; exact .arr hm

/-- `P` and `Q w` for the values `w` of `M` agree. -/
structure ViaAgree (P M : Value → Prop) (Q : Value → Value → Prop) : Prop where
  there : ∀ v, P v → (∃ w, M w) ∧ ∀ w, M w → ∃ u, Q w u
  back : ∀ w u, M w → Q w u → ∃ v, P v
  same : ∀ v w u, P v → M w → Q w u → v.data = u.data

/-- `a ∘ b ∘' c`, from the left. -/
def Left (op op' : BinOp) (a b c v : Value) : Prop := ∃ s, OpTable op a b (.value s) ∧ OpTable op' s c (.value v)

theorem ms_assoc {a b c : Ty} :
    (∀ x m y n, Ty.mostSpecific a b = some (x, m) → Ty.mostSpecific x c = some (y, n) →
      ∃ z m', Ty.mostSpecific b c = some (z, m') ∧ ∃ n', Ty.mostSpecific a z = some (y, n')) ∧
    (∀ x m y n, Ty.mostSpecific b c = some (x, m) → Ty.mostSpecific a x = some (y, n) →
      ∃ z m', Ty.mostSpecific a b = some (z, m') ∧ ∃ n', Ty.mostSpecific z c = some (y, n')) := by
  have h := c03_most_specific_assoc a b c
  constructor
  · intro x m y n h1 h2
    simp only [h1, Option.bind_some, h2, Option.map_some] at h
    cases h3 : Ty.mostSpecific b c with
    | none => simp [h3] at h
    | some z =>
      obtain ⟨z, m'⟩ := z
      simp only [h3, Option.bind_some] at h
      cases h4 : Ty.mostSpecific a z with
      | none => simp [h4] at h
      | some q => obtain ⟨q, n'⟩ := q; simp [h4] at h; subst h; exact ⟨_, _, rfl, _, h4⟩
  · intro x m y n h1 h2
    simp only [h1, Option.bind_some, h2, Option.map_some] at h
    cases h3 : Ty.mostSpecific a b with
    | none => simp [h3] at h
    | some z =>
      obtain ⟨z, m'⟩ := z
      simp only [h3, Option.bind_some] at h
      cases h4 : Ty.mostSpecific z c with
      | none => simp [h4] at h
      | some q => obtain ⟨q, n'⟩ := q; simp [h4] at h; subst h; exact ⟨_, _, rfl, _, h4⟩

theorem sums_regroup (a b c : Value) :
    ViaAgree (Left .plus .plus a b c) (fun w => OpTable .plus b c (.value w)) (fun w u => OpTable .plus a w (.value u)) where
  there := by
    rintro v ⟨s, h1, h2⟩
    cases add_inv h1 with
    | num ha hb hs =>
      cases add_inv h2 with
      | num hs' hc hv =>
        obtain ⟨w, hw, hw'⟩ := add_num hb hc
        refine ⟨⟨w, hw⟩, fun w hw => ?_⟩
        cases add_inv hw with
        | num hb' hc' hw => obtain ⟨u, hu, -⟩ := add_num ha hw; exact ⟨u, hu⟩
        | str => cases hb
        | arr => cases hb
      | str => cases hs
      | arr => cases hs
    | str =>
      cases add_inv h2 with
      | num hs => cases hs
      | str =>
        refine ⟨⟨_, .concatStr _ _⟩, fun w hw => ?_⟩
        cases hw with
        | concatStr => exact ⟨_, .concatStr _ _⟩
        | addFrac hs h1 => cases h1
    | arr hm =>
      cases add_inv h2 with
      | num hs => cases hs
      | arr hm' =>
        obtain ⟨z, m', h3, n', h4⟩ := ms_assoc.1 _ _ _ _ hm hm'
        refine ⟨⟨_, .concatArr (id := 0) (lcr_pair.2 ⟨_, h3⟩)⟩, fun w hw => ?_⟩
        cases add_inv hw with
        | num hs => cases hs
        | arr h5 =>
          rw [h3] at h5; cases h5
          exact ⟨_, .concatArr (id := 0) (lcr_pair.2 ⟨_, h4⟩)⟩
  back := by
    intro w u h1 h2
    cases add_inv h1 with
    | num hb hc hw =>
      cases add_inv h2 with
      | num ha hw' hv =>
        obtain ⟨s, hs, hs'⟩ := add_num ha hb
        obtain ⟨v, hv, -⟩ := add_num hs' hc
        exact ⟨v, s, hs, hv⟩
      | str => cases hw
      | arr => cases hw
    | str =>
      cases add_inv h2 with
      | num _ hs => cases hs
      | str => exact ⟨_, _, .concatStr _ _, .concatStr _ _⟩
    | arr hm =>
      cases add_inv h2 with
      | num _ hs => cases hs
      | arr hm' =>
        obtain ⟨z, m', h3, n', h4⟩ := ms_assoc.2 _ _ _ _ hm hm'
        exact ⟨_, _, .concatArr (id := 0) (lcr_pair.2 ⟨_, h3⟩), .concatArr (id := 0) (lcr_pair.2 ⟨_, h4⟩)⟩
  same := by
    rintro v w u ⟨s, h1, h2⟩ h3 h4
    cases add_inv h1 with
    | num ha hb hs =>
      cases add_inv h2 with
      | num hs' hc hv =>
        cases add_inv h3 with
        | num hb' hc' hw =>
          cases add_inv h4 with
          | num ha' hw' hu =>
            obtain ⟨rfl, rfl⟩ := hs.det hs'
            obtain ⟨rfl, rfl⟩ := hb.det hb'
            obtain ⟨rfl, rfl⟩ := hc.det hc'
            obtain ⟨rfl, rfl⟩ := ha.det ha'
            obtain ⟨rfl, rfl⟩ := hw.det hw'
            rw [← add_assoc, ← Bool.or_assoc] at hu
            rw [hv.eq hu]
          | str => cases ha
          | arr => cases ha
        | str => cases hb
        | arr => cases hb
      | str => cases hs
      | arr => cases hs
    | str =>
      cases add_inv h2 with
      | num hs => cases hs
      | str =>
        cases add_inv h3 with
        | num hs => cases hs
        | str =>
          cases add_inv h4 with
          | num hs => cases hs
          | str => simp
    | arr hm =>
      cases add_inv h2 with
      | num hs => cases hs
      | arr hm' =>
        cases add_inv h3 with
        | num hs => cases hs
        | arr hm2 =>
          cases add_inv h4 with
          | num hs => cases hs
          | arr hm3 =>
            obtain ⟨z, m', h5, n', h6⟩ := ms_assoc.1 _ _ _ _ hm hm'
            rw [hm2] at h5; cases h5
            rw [hm3] at h6; cases h6
            simp [Value.data]

/-- Laws between numbers only: both sides are values exactly for numbers (with the side condition `C`), and are the same
number, an Int or a Frac alike. -/
theorem via_num {a b c : Value} {P M : Value → Prop} {Q : Value → Value → Prop} {C : Rat → Rat → Rat → Prop}
    {N : Rat → Rat → Rat → Rat} {F : Bool → Bool → Bool → Bool} {K : Rat → Rat → Rat} {G : Bool → Bool → Bool}
    (hP : ∀ v, P v → ∃ x y z f g k, Num a x f ∧ Num b y g ∧ Num c z k ∧ C x y z ∧ Num v (N x y z) (F f g k))
    (hP' : ∀ {x y z f g k}, Num a x f → Num b y g → Num c z k → C x y z → ∃ v, P v)
    (hM : ∀ {y z g k}, Num b y g → Num c z k → (∃ w, M w) ∧ ∀ w, M w → Num w (K y z) (G g k))
    (hQ : ∀ {x y z f g k w}, Num a x f → Num b y g → Num c z k → Num w (K y z) (G g k) → C x y z → ∃ u, Q w u)
    (hQ' : ∀ w u, M w → Q w u → ∃ x y z f g k, Num a x f ∧ Num b y g ∧ Num c z k ∧ C x y z ∧
      Num u (N x y z) (F f g k)) : ViaAgree P M Q where
  there := by
    intro v h
    obtain ⟨x, y, z, f, g, k, ha, hb, hc, h0, hv⟩ := hP v h
    exact ⟨(hM hb hc).1, fun w hw => hQ ha hb hc ((hM hb hc).2 w hw) h0⟩
  back := by
    intro w u h1 h2
    obtain ⟨x, y, z, f, g, k, ha, hb, hc, h0, -⟩ := hQ' w u h1 h2
    exact hP' ha hb hc h0
  same := by
    intro v w u h h1 h2
    obtain ⟨x, y, z, f, g, k, ha, hb, hc, h0, hv⟩ := hP v h
    obtain ⟨x', y', z', f', g', k', ha', hb', hc', h0', hu⟩ := hQ' w u h1 h2
    obtain ⟨rfl, rfl⟩ := ha.det ha'
    obtain ⟨rfl, rfl⟩ := hb.det hb'
    obtain ⟨rfl, rfl⟩ := hc.det hc'
    rw [hv.eq hu]

theorem add_num_only {a b v : Value} {x y : Rat} {f g : Bool} (h : OpTable .plus a b (.value v)) (ha : Num a x f)
    (hb : Num b y g) : Num v (x + y) (f || g) := by
  cases add_inv h with
  | num h1 h2 h3 =>
    obtain ⟨rfl, rfl⟩ := ha.det h1
    obtain ⟨rfl, rfl⟩ := hb.det h2
    exact h3
  | str => cases ha
  | arr => cases ha

theorem mul_num_only {a b v : Value} {x y : Rat} {f g : Bool} (h : OpTable .mult a b (.value v)) (ha : Num a x f)
    (hb : Num b y g) : Num v (x * y) (f || g) := by
  obtain ⟨x', y', f', g', h1, h2, h3⟩ := mul_inv h
  obtain ⟨rfl, rfl⟩ := ha.det h1
  obtain ⟨rfl, rfl⟩ := hb.det h2
  exact h3

theorem products_regroup (a b c : Value) :
    ViaAgree (Left .mult .mult a b c) (fun w => OpTable .mult b c (.value w)) (fun w u => OpTable .mult a w (.value u)) := by
  refine via_num (a := a) (b := b) (c := c) (C := fun _ _ _ => True) (N := fun x y z => x * y * z)
    (F := fun f g k => f || g || k) (K := fun y z => y * z) (G := fun g k => g || k) ?_ ?_ ?_ ?_ ?_
  · rintro v ⟨s, h1, h2⟩
    obtain ⟨x, y, f, g, ha, hb, hs⟩ := mul_inv h1
    obtain ⟨x', z, f', k, hs', hc, hv⟩ := mul_inv h2
    obtain ⟨rfl, rfl⟩ := hs.det hs'
    exact ⟨_, _, _, _, _, _, ha, hb, hc, trivial, hv⟩
  · intro x y z f g k ha hb hc _
    obtain ⟨s, hs, hs'⟩ := mul_num ha hb
    obtain ⟨v, hv, -⟩ := mul_num hs' hc
    exact ⟨v, s, hs, hv⟩
  · intro y z g k hb hc
    obtain ⟨w, hw, -⟩ := mul_num hb hc
    exact ⟨⟨w, hw⟩, fun w hw => mul_num_only hw hb hc⟩
  · intro x y z f g k w ha hb hc hw _
    obtain ⟨u, hu, -⟩ := mul_num ha hw
    exact ⟨u, hu⟩
  · intro w u hw hu
    obtain ⟨y, z, g, k, hb, hc, hw⟩ := mul_inv hw
    obtain ⟨x, w', f, _, ha, hw', hu⟩ := mul_inv hu
    obtain ⟨rfl, rfl⟩ := hw.det hw'
    rw [← mul_assoc, ← Bool.or_assoc] at hu
    exact ⟨_, _, _, _, _, _, ha, hb, hc, trivial, hu⟩

theorem differences_regroup (a b c : Value) :
    ViaAgree (Left .minus .minus a b c) (fun w => OpTable .plus b c (.value w)) (fun w u => OpTable .minus a w (.value u)) := by
  refine via_num (a := a) (b := b) (c := c) (C := fun _ _ _ => True) (N := fun x y z => x - y - z)
    (F := fun f g k => f || g || k) (K := fun y z => y + z) (G := fun g k => g || k) ?_ ?_ ?_ ?_ ?_
  · rintro v ⟨s, h1, h2⟩
    obtain ⟨x, y, f, g, ha, hb, hs⟩ := sub_inv h1
    obtain ⟨x', z, f', k, hs', hc, hv⟩ := sub_inv h2
    obtain ⟨rfl, rfl⟩ := hs.det hs'
    exact ⟨_, _, _, _, _, _, ha, hb, hc, trivial, hv⟩
  · intro x y z f g k ha hb hc _
    obtain ⟨s, hs, hs'⟩ := sub_num ha hb
    obtain ⟨v, hv, -⟩ := sub_num hs' hc
    exact ⟨v, s, hs, hv⟩
  · intro y z g k hb hc
    obtain ⟨w, hw, -⟩ := add_num hb hc
    exact ⟨⟨w, hw⟩, fun w hw => add_num_only hw hb hc⟩
  · intro x y z f g k w ha hb hc hw _
    obtain ⟨u, hu, -⟩ := sub_num ha hw
    exact ⟨u, hu⟩
  · intro w u hw hu
    obtain ⟨x, w', f, _, ha, hw', hu⟩ := sub_inv hu
    cases add_inv hw with
    | num hb hc hw =>
      obtain ⟨rfl, rfl⟩ := hw.det hw'
      rw [← sub_sub, ← Bool.or_assoc] at hu
      exact ⟨_, _, _, _, _, _, ha, hb, hc, trivial, hu⟩
    | str => cases hw'
    | arr => cases hw'

theorem quotients_regroup (a b c : Value) :
    ViaAgree (Left .div .div a b c) (fun w => OpTable .mult b c (.value w)) (fun w u => OpTable .div a w (.value u)) := by
  refine via_num (a := a) (b := b) (c := c) (C := fun _ y z => y ≠ 0 ∧ z ≠ 0) (N := fun x y z => x / y / z)
    (F := fun _ _ _ => true) (K := fun y z => y * z) (G := fun g k => g || k) ?_ ?_ ?_ ?_ ?_
  · rintro v ⟨s, h1, h2⟩
    obtain ⟨x, y, f, g, ha, hb, h0, hs⟩ := div_inv h1
    obtain ⟨x', z, f', k, hs', hc, h0', hv⟩ := div_inv h2
    obtain ⟨rfl, rfl⟩ := hs.det hs'
    exact ⟨_, _, _, _, _, _, ha, hb, hc, ⟨h0, h0'⟩, hv⟩
  · rintro x y z f g k ha hb hc ⟨h0, h0'⟩
    exact ⟨_, _, .div ha.isNumber hb.isNumber h0, .div (.frac _) hc.isNumber h0'⟩
  · intro y z g k hb hc
    obtain ⟨w, hw, -⟩ := mul_num hb hc
    exact ⟨⟨w, hw⟩, fun w hw => mul_num_only hw hb hc⟩
  · rintro x y z f g k w ha hb hc hw ⟨h0, h0'⟩
    exact ⟨_, .div ha.isNumber hw.isNumber (mul_ne_zero h0 h0')⟩
  · intro w u hw hu
    obtain ⟨x, w', f, _, ha, hw', h0, hu⟩ := div_inv hu
    obtain ⟨y, z, g, k, hb, hc, hw⟩ := mul_inv hw
    obtain ⟨rfl, rfl⟩ := hw.det hw'
    rw [← div_div] at hu
    exact ⟨_, _, _, _, _, _, ha, hb, hc, ⟨left_ne_zero_of_mul h0, right_ne_zero_of_mul h0⟩, hu⟩

/-- `a*b+a*c`. -/
def Distributed (a b c v : Value) : Prop := ∃ s t, OpTable .mult a b (.value s) ∧ OpTable .mult a c (.value t) ∧
  OpTable .plus s t (.value v)

theorem distribute (a b c : Value) :
    ViaAgree (Distributed a b c) (fun w => OpTable .plus b c (.value w)) (fun w u => OpTable .mult a w (.value u)) := by
  refine via_num (a := a) (b := b) (c := c) (C := fun _ _ _ => True) (N := fun x y z => x * y + x * z)
    (F := fun f g k => (f || g) || (f || k)) (K := fun y z => y + z) (G := fun g k => g || k) ?_ ?_ ?_ ?_ ?_
  · rintro v ⟨s, t, h1, h2, h3⟩
    obtain ⟨x, y, f, g, ha, hb, hs⟩ := mul_inv h1
    obtain ⟨x', z, f', k, ha', hc, ht⟩ := mul_inv h2
    obtain ⟨rfl, rfl⟩ := ha.det ha'
    exact ⟨_, _, _, _, _, _, ha, hb, hc, trivial, add_num_only h3 hs ht⟩
  · intro x y z f g k ha hb hc _
    obtain ⟨s, hs, hs'⟩ := mul_num ha hb
    obtain ⟨t, ht, ht'⟩ := mul_num ha hc
    obtain ⟨v, hv, -⟩ := add_num hs' ht'
    exact ⟨v, s, t, hs, ht, hv⟩
  · intro y z g k hb hc
    obtain ⟨w, hw, -⟩ := add_num hb hc
    exact ⟨⟨w, hw⟩, fun w hw => add_num_only hw hb hc⟩
  · intro x y z f g k w ha hb hc hw _
    obtain ⟨u, hu, -⟩ := mul_num ha hw
    exact ⟨u, hu⟩
  · intro w u hw hu
    obtain ⟨x, w', f, _, ha, hw', hu⟩ := mul_inv hu
    cases add_inv hw with
    | @num _ _ _ _ _ g k hb hc hw =>
      obtain ⟨rfl, rfl⟩ := hw.det hw'
      rw [mul_add] at hu
      refine ⟨_, _, _, _, _, _, ha, hb, hc, trivial, ?_⟩
      have : (f || g || (f || k)) = (f || (g || k)) := by cases f <;> cases g <;> cases k <;> rfl
      rw [this]
      exact hu
    | str => cases hw'
    | arr => cases hw'

/-- Negation of a number. -/
inductive NegOf : Value → Value → Prop
  | int (i : Int) : NegOf (.int i) (.int (-i))
  | frac (q : Rat) : NegOf (.frac q) (.frac (-q))

theorem NegOf.num {b w : Value} (h : NegOf b w) : ∃ y g, Num b y g ∧ Num w (-y) g := by
  cases h with
  | int i => exact ⟨_, _, .int i, by rw [← Rat.intCast_neg]; exact .int _⟩
  | frac q => exact ⟨_, _, .frac q, .frac _⟩

theorem Num.neg {b : Value} {y : Rat} {g : Bool} (h : Num b y g) : ∃ w, NegOf b w := by
  cases h
  · exact ⟨_, .int _⟩
  · exact ⟨_, .frac _⟩

theorem subtract_adds (a b : Value) :
    ViaAgree (fun v => OpTable .minus a b (.value v)) (NegOf b) (fun w u => OpTable .plus a w (.value u)) where
  there := by
    intro v h
    obtain ⟨x, y, f, g, ha, hb, hv⟩ := sub_inv h
    refine ⟨hb.neg, fun w hw => ?_⟩
    obtain ⟨y', g', -, hw⟩ := hw.num
    obtain ⟨u, hu, -⟩ := add_num ha hw
    exact ⟨u, hu⟩
  back := by
    intro w u hw hu
    obtain ⟨y, g, hb, hw⟩ := hw.num
    cases add_inv hu with
    | num ha hw' hu => obtain ⟨v, hv, -⟩ := sub_num ha hb; exact ⟨v, hv⟩
    | str => cases hw
    | arr => cases hw
  same := by
    intro v w u h hw hu
    obtain ⟨x, y, f, g, ha, hb, hv⟩ := sub_inv h
    obtain ⟨y', g', hb', hw⟩ := hw.num
    obtain ⟨rfl, rfl⟩ := hb.det hb'
    have hu := add_num_only hu ha hw
    rw [← sub_eq_add_neg] at hu
    rw [hv.eq hu]

/-! ## Commutativity -/

theorem products_commute {a b v : Value} (h : OpTable .mult a b (.value v)) : OpTable .mult b a (.value v) := by
  obtain ⟨x, y, f, g, ha, hb, hv⟩ := mul_inv h
  obtain ⟨w, hw, hw'⟩ := mul_num hb ha
  rw [mul_comm, Bool.or_comm] at hw'
  rwa [hv.eq hw']

theorem sums_commute {a b v : Value} (h : OpTable .plus a b (.value v)) :
    ∃ w, OpTable .plus b a (.value w) ∧ ((∃ x, IsNumber a x) → w = v) := by
  cases add_inv h with
  | num ha hb hv =>
    obtain ⟨w, hw, hw'⟩ := add_num hb ha
    rw [add_comm, Bool.or_comm] at hw'
    exact ⟨w, hw, fun _ => hw'.eq hv⟩
  | str s t => exact ⟨_, .concatStr _ _, by rintro ⟨x, hx⟩; cases hx⟩
  | arr hm =>
    rw [c03_most_specific_comm] at hm
    exact ⟨_, .concatArr (id := 0) (lcr_pair.2 ⟨_, hm⟩), by rintro ⟨x, hx⟩; cases hx⟩

/-! ## Chains of any length -/

theorem TreeValue.node_inv {op : BinOp} {l r : OpTree} {v : Value} (h : TreeValue (.node op l r) v) :
    ∃ a b, TreeValue l a ∧ TreeValue r b ∧ OpTable op a b (.value v) := by
  cases h with
  | node h1 h2 h3 => exact ⟨_, _, h1, h2, h3⟩

theorem TreeValue.leaf_inv {w v : Value} (h : TreeValue (.leaf w) v) : v = w := by cases h; rfl

/-- The number of a chain of sums. -/
theorem sum_chain {v : Value} {x : Rat} {f : Bool} (hv : Num v x f) (ws : List Value) (N : Value → Rat) (F : Value → Bool)
    (hw : ∀ w ∈ ws, Num w (N w) (F w)) :
    ∃ t, SumTree v (ws.map (fun w => (BinOp.plus, w))) t ∧ (∃ u, TreeValue t u) ∧
      ∀ u, TreeValue t u → Num u (x + (ws.map N).sum) (f || ws.any F) := by
  induction ws using List.reverseRecOn with
  | nil =>
    refine ⟨.leaf v, .product (.one v), ⟨v, .leaf v⟩, fun u hu => ?_⟩
    cases hu.leaf_inv
    simpa using hv
  | append_singleton ws w ih =>
    obtain ⟨t, h1, ⟨u, h2⟩, h3⟩ := ih (fun w hw' => hw w (by simp [hw']))
    have hw := hw w (by simp)
    obtain ⟨u', h4, -⟩ := add_num (h3 u h2) hw
    refine ⟨.node .plus t (.leaf w), ?_, ⟨u', .node h2 (.leaf w) h4⟩, fun u hu => ?_⟩
    · simpa using SumTree.plus h1 (.inl rfl) (.one w)
    · obtain ⟨a, b, h5, h6, h7⟩ := hu.node_inv
      cases h6.leaf_inv
      have := add_num_only h7 (h3 a h5) hw
      simpa [add_assoc, Bool.or_assoc] using this

/-- The number of a chain of products. -/
theorem product_chain {v : Value} {x : Rat} {f : Bool} (hv : Num v x f) (ws : List Value) (N : Value → Rat)
    (F : Value → Bool) (hw : ∀ w ∈ ws, Num w (N w) (F w)) :
    ∃ t, ProductTree v (ws.map (fun w => (BinOp.mult, w))) t ∧ (∃ u, TreeValue t u) ∧
      ∀ u, TreeValue t u → Num u (x * (ws.map N).prod) (f || ws.any F) := by
  induction ws using List.reverseRecOn with
  | nil =>
    refine ⟨.leaf v, .one v, ⟨v, .leaf v⟩, fun u hu => ?_⟩
    cases hu.leaf_inv
    simpa using hv
  | append_singleton ws w ih =>
    obtain ⟨t, h1, ⟨u, h2⟩, h3⟩ := ih (fun w hw' => hw w (by simp [hw']))
    have hw := hw w (by simp)
    obtain ⟨u', h4, -⟩ := mul_num (h3 u h2) hw
    refine ⟨.node .mult t (.leaf w), ?_, ⟨u', .node h2 (.leaf w) h4⟩, fun u hu => ?_⟩
    · simpa using ProductTree.times (w := w) h1 (.inl rfl)
    · obtain ⟨a, b, h5, h6, h7⟩ := hu.node_inv
      cases h6.leaf_inv
      have := mul_num_only h7 (h3 a h5) hw
      simpa [mul_assoc, Bool.or_assoc] using this

/-! ## At a place -/

section
variable [Unicode]

/-- At these definitions the formula has the values `P`, whatever the state. -/
structure FormulaMeans (fs : FS) (d : Nat) (ps : List Pair) (ex : Expr) (P : Value → Prop) : Prop where
  only : ∀ st v st', evalExpr fs none [] (theLoader fs) ex ps d st = .ok (v, st') → P v
  some : (∃ v, P v) → ∀ st, ∃ v st', evalExpr fs none [] (theLoader fs) ex ps d st = .ok (v, st')

theorem evalTerm_field {fs : FS} {ps : List Pair} {d : Nat} {x : Str} {v : Value} (hx : FieldName x)
    (h : FirstNamed ps x v) (st : ESt) : evalTerm fs none [] (theLoader fs) (.name x) ps d st = .ok (v, st) := by
  simp only [evalTerm, evalName_first hx h]; rfl

theorem means_chain {fs : FS} {d : Nat} {ps : List Pair} {x : Str} {r : List (BinOp × Str)} {v : Value}
    {ws : List (BinOp × Value)} (hx : FieldName x) (hxv : FirstNamed ps x v) (hr : ∀ p ∈ r, FieldName p.2)
    (hrw : ChainValues ps r ws) {t : OpTree} (ht : SumTree v ws t) :
    FormulaMeans fs d ps (.mk (.name x) (r.map (fun p => .mk p.1 (.name p.2)))) (TreeValue t) := by
  have hk : List.Forall₂ (Known fs none [] (theLoader fs) ps d) (r.map (fun p => .mk p.1 (.name p.2))) ws := by
    rw [List.forall₂_map_left_iff]
    unfold ChainValues at hrw
    clear ht
    induction hrw with
    | nil => exact .nil
    | @cons p q r ws h1 h2 ih =>
      refine .cons ⟨_, by rw [← h1.1], fun st => evalTerm_field (hr p (by simp)) h1.2 st⟩
        (ih (fun p hp => hr p (by simp [hp])))
  constructor
  · intro st u st' he
    rw [evalExpr_known (evalTerm_field hx hxv) hk] at he
    exact tree_of_chain ht he
  · rintro ⟨u, hu⟩ st
    obtain ⟨p, sums, u', st', h2, h3, h4, h5⟩ := chain_of_tree (file := none) ht hu st
    refine ⟨u', st', ?_⟩
    rw [evalExpr_known (evalTerm_field hx hxv) hk]
    unfold chainVals
    rw [EM.bind_ok (h2 st)]
    exact h3

theorem means_neg {fs : FS} {d : Nat} {ps : List Pair} {x : Str} {v : Value} (hx : FieldName x)
    (hxv : FirstNamed ps x v) : FormulaMeans fs d ps (.mk (.neg (.name x)) []) (NegOf v) := by
  have key : ∀ st, evalExpr fs none [] (theLoader fs) (.mk (.neg (.name x)) []) ps d st = applyUn none .minus v st := by
    intro st
    rw [evalExpr_term]
    simp only [evalTerm]
    have := evalTerm_field (fs := fs) (d := d) hx hxv st
    simp only [evalTerm] at this
    rw [EM.bind_ok this]
  constructor
  · intro st w st' he
    rw [key] at he
    cases v <;> cases he <;> constructor
  · rintro ⟨w, hw⟩ st
    rw [key]
    cases hw <;> exact ⟨_, _, rfl⟩

theorem gives_means {fs : FS} {rt : Rt} {A : List (Str × Str)} {u : Str} {p : Obj} (h : ReadsAt fs rt A u p)
    {y e : Str} {ex : Expr} (hy : FieldName y) (hn : NotNamed p.pairs y) (he : SpExpr ex e) {P : Value → Prop}
    (hm : FormulaMeans fs (1 + A.length) p.pairs ex P) :
    (∀ v, Gives fs rt A u p y e v → P v) ∧ ((∃ v, P v) → ∃ v, Gives fs rt A u p y e v) := by
  obtain ⟨st, -, hc⟩ := at_place h
  constructor
  · rintro v ⟨p', h1, h2⟩
    obtain ⟨w, st', h3, h4⟩ := denotes_eval hc hy hn he h1
    rw [h2] at h4
    simp at h4
    subst h4
    exact hm.only _ _ _ h3
  · intro hv
    obtain ⟨v, st', h1⟩ := hm.some hv st
    obtain ⟨-, p', h2, h3, -⟩ := (field_at hc hy hn he).2.2 v st' h1
    exact ⟨v, p', h2, h3⟩

omit [Unicode] in
theorem text_via (u z f y e : Str) : u ++ c!"\n" ++ z ++ c!":" ++ f ++ c!"\n" ++ y ++ c!":" ++ e =
    u ++ '\n' :: ((z ++ ':' :: f) ++ '\n' :: (y ++ ':' :: e)) := by simp

theorem via_means {fs : FS} {rt : Rt} {A : List (Str × Str)} {u : Str} {p : Obj} (h : ReadsAt fs rt A u p)
    {z f y e : Str} {ef ex : Expr} (hz : FieldName z) (hy : FieldName y) (hzn : NotNamed p.pairs z)
    (hyn : NotNamed p.pairs y) (hyz : y ≠ z) (hf : SpExpr ef f) (he : SpExpr ex e) {M : Value → Prop}
    {Q : Value → Value → Prop} (hM : FormulaMeans fs (1 + A.length) p.pairs ef M)
    (hQ : ∀ w, FormulaMeans fs (1 + A.length) (p.pairs ++ [.mk z w]) ex (Q w)) :
    (∀ v, GivesVia fs rt A u p z f y e v → ∃ w, M w ∧ Q w v) ∧
    ((∃ w, M w) → (∀ w, M w → ∃ v, Q w v) → ∃ v, GivesVia fs rt A u p z f y e v) := by
  obtain ⟨st, -, hc⟩ := at_place h
  obtain ⟨h1, h2⟩ := hc _ _ (spDoc_append (spOne (.field hy) he) _ _ (spOne (.field hz) hf))
  rw [← text_via] at h1 h2
  simp only [evalFields_append, evalFields_one, if_neg (notNamed_mem hzn)] at h1 h2
  have hyn' : ∀ w, NotNamed (p.pairs ++ [.mk z w]) y := by
    intro w q hq
    rcases List.mem_append.1 hq with hq | hq
    · exact hyn q hq
    · rw [List.mem_singleton.1 hq]; exact Ne.symm hyz
  constructor
  · rintro v ⟨p', w', ⟨-, -, o, s, hr1, hr2⟩, hp'⟩
    cases hef : evalExpr fs none [] (theLoader fs) ef p.pairs (1 + A.length) st with
    | error er =>
      have := h1 er (by rw [hef])
      rw [hr1] at this
      exact this.elim
    | ok q =>
      obtain ⟨w, st1⟩ := q
      simp only [hef, if_neg (notNamed_mem (hyn' w))] at h1 h2
      cases hex : evalExpr fs none [] (theLoader fs) ex (p.pairs ++ [.mk z w]) (1 + A.length) st1 with
      | error er =>
        have := h1 er (by rw [hex])
        rw [hr1] at this
        exact this.elim
      | ok q =>
        obtain ⟨v', st2⟩ := q
        obtain ⟨-, i, -, -, o', s', h3, h4⟩ := h2 _ _ _ (by rw [hex])
        rw [hr1] at h3
        cases h3
        have := (hr2.unique h4).1
        rw [hp'] at this
        simp [Obj.pairs] at this
        obtain ⟨rfl, rfl⟩ := this
        exact ⟨_, hM.only _ _ _ hef, (hQ _).only _ _ _ hex⟩
  · intro hw hv
    obtain ⟨w, st1, h3⟩ := hM.some hw st
    obtain ⟨v, st2, h4⟩ := (hQ w).some (hv w (hM.only _ _ _ h3)) st1
    simp only [h3, if_neg (notNamed_mem (hyn' w))] at h2
    obtain ⟨-, i, h5⟩ := h2 _ _ _ (by rw [h4])
    exact ⟨v, _, w, h5, by simp [Obj.pairs]⟩

/-- A law between values is a law between documents. -/
theorem law_at {fs : FS} {rt : Rt} {A : List (Str × Str)} {u : Str} {p : Obj} (h : ReadsAt fs rt A u p)
    {z f y e g : Str} {ef ex eg : Expr} (hz : FieldName z) (hy : FieldName y) (hzn : NotNamed p.pairs z)
    (hyn : NotNamed p.pairs y) (hyz : y ≠ z) (hg : SpExpr eg g) (hf : SpExpr ef f) (he : SpExpr ex e)
    {P M : Value → Prop} {Q : Value → Value → Prop} (hP : FormulaMeans fs (1 + A.length) p.pairs eg P)
    (hM : FormulaMeans fs (1 + A.length) p.pairs ef M)
    (hQ : ∀ w, FormulaMeans fs (1 + A.length) (p.pairs ++ [.mk z w]) ex (Q w)) (hl : ViaAgree P M Q) :
    Agree (Gives fs rt A u p y g) (GivesVia fs rt A u p z f y e) := by
  obtain ⟨h1, h2⟩ := gives_means h hy hyn hg hP
  obtain ⟨h3, h4⟩ := via_means h hz hy hzn hyn hyz hf he hM hQ
  refine ⟨⟨?_, ?_⟩, ?_⟩
  · rintro ⟨v, hv⟩
    exact h4 (hl.there v (h1 v hv)).1 (hl.there v (h1 v hv)).2
  · rintro ⟨v, hv⟩
    obtain ⟨w, hw, hq⟩ := h3 v hv
    exact h2 (hl.back w v hw hq)
  · intro v w hv hw
    obtain ⟨m, hm, hq⟩ := h3 w hw
    exact hl.same v m w (h1 v hv) hm hq

/-- The same without an auxiliary field. -/
theorem agree_at {fs : FS} {rt : Rt} {A : List (Str × Str)} {u : Str} {p : Obj} (h : ReadsAt fs rt A u p)
    {y e g : Str} {ex eg : Expr} (hy : FieldName y) (hyn : NotNamed p.pairs y) (hg : SpExpr eg g) (he : SpExpr ex e)
    {P Q : Value → Prop} (hP : FormulaMeans fs (1 + A.length) p.pairs eg P) (hQ : FormulaMeans fs (1 + A.length) p.pairs ex Q)
    (hl : Agree P Q) : Agree (Gives fs rt A u p y g) (Gives fs rt A u p y e) := by
  obtain ⟨h1, h2⟩ := gives_means h hy hyn hg hP
  obtain ⟨h3, h4⟩ := gives_means h hy hyn he hQ
  refine ⟨⟨?_, ?_⟩, fun v w hv hw => hl.2 v w (h1 v hv) (h3 w hw)⟩
  · rintro ⟨v, hv⟩
    exact h4 (hl.1.1 ⟨v, h1 v hv⟩)
  · rintro ⟨v, hv⟩
    exact h2 (hl.1.2 ⟨v, h3 v hv⟩)

end

end Over

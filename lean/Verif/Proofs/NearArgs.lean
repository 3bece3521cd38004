import Verif.Spec.NearArgs

/-! Lemmas for the arguments of neighbour queries. -/

namespace TreeCorr
namespace NearArgs

theorem bind_ok {α β : Type} {x : Except PyErr α} {f : α → Except PyErr β} {b : β} :
    x.bind f = .ok b ↔ ∃ a, x = .ok a ∧ f a = .ok b := by
  cases x <;> simp [Except.bind]

theorem need_ok {α : Type} {o : Option α} {a : α} : need o = .ok a ↔ o = some a := by
  cases o <;> simp [need]

theorem toNum_ok {a : Arg} {x : ℝ} : toNum a = .ok x ↔ a = .num x := by
  cases a <;> simp [toNum]

theorem toAngle_ok {a : Arg} {u v : Option (Option ℝ)} {r : ℝ} (h : toAngle a u = .ok (r, v)) :
    (∃ t, a = .angle t ∧ r = t ∧ v = u) ∨ ∃ x w, a = .num x ∧ u = some (some w) ∧ r = x * w ∧ v = none := by
  cases a with
  | angle t => simp only [toAngle, Except.ok.injEq, Prod.mk.injEq] at h; exact .inl ⟨t, rfl, h.1.symm, h.2.symm⟩
  | num x =>
    rcases u with _ | _ | w <;> simp [toAngle] at h
    exact .inr ⟨x, w, rfl, rfl, h.1.symm, h.2.symm⟩
  | coord _ _ => rcases u with _ | _ | w <;> simp [toAngle] at h

theorem toAngle_none {a : Arg} {u : Option (Option ℝ)} {r : ℝ} (h : toAngle a u = .ok (r, none)) :
    ∃ g : Ang, a = g.arg ∧ u = g.unit ∧ r = g.rad := by
  rcases toAngle_ok h with ⟨t, rfl, rfl, h'⟩ | ⟨x, w, rfl, rfl, rfl, -⟩
  · exact ⟨.angle r, rfl, h'.symm, rfl⟩
  · exact ⟨.units x w, rfl, rfl, rfl⟩

theorem toAngle_ang (g : Ang) : toAngle g.arg g.unit = .ok (g.rad, none) := by
  cases g <;> rfl

theorem celestial_ok {a d : ℝ} {p : ℝ × ℝ × ℝ} : celestial a d = .ok p ↔
    IsDec d ∧ p = (Real.cos d * Real.cos a, Real.cos d * Real.sin a, Real.sin d) := by
  unfold celestial IsDec
  split <;> rename_i h
  · simp only [Except.ok.injEq, h, true_and, and_self]; exact eq_comm
  · simp [h]

theorem left_false {k : Kw} : k.left = false ↔ k = {} := by
  obtain ⟨x, y, z, ra, dec, r, sep, raU, decU, sepU, other⟩ := k
  simp [Kw.left, and_assoc]

/-- What can be finished. -/
inductive Done : Coords → Loc → Arg → Kw → ℝ × ℝ × ℝ × ℝ → Prop
  | xyz (c : Coords) (hc : c ≠ .sphere) (x y z s : ℝ) : Done c (.xyz (.num x) (.num y) (.num z)) (.num s) {} (x, y, z, s)
  | sky (c : Coords) (hc : c ≠ .sphere) (a d : Ang) (r s : ℝ) (h : IsDec d.rad) :
    Done c (.sky a.arg d.arg (some (.num r))) (.num s) { raU := a.unit, decU := d.unit } (skyPoint a.rad d.rad r s)
  | sphere (a d s : Ang) (h : IsDec d.rad) :
    Done .sphere (.sky a.arg d.arg none) s.arg { raU := a.unit, decU := d.unit, sepU := s.unit } (skyPoint a.rad d.rad 1 (chord s.rad))

/-- The places that go with each system of coordinates. -/
def Loc.For (c : Coords) (l : Loc) : Prop :=
  match c, l with
  | .sphere, .sky _ _ none => True
  | .sphere, _ => False
  | _, .sky _ _ none => False
  | _, _ => True

theorem finish_of {c : Coords} {l : Loc} {s : Arg} {k : Kw} {res : ℝ × ℝ × ℝ × ℝ} (h : Done c l s k res) : finish c l s k = .ok res := by
  cases h with
  | xyz _ hc x y z s => cases c <;> first | exact absurd rfl hc | rfl
  | sky _ hc a d r s h =>
    have hcel : celestial a.rad d.rad = .ok _ := celestial_ok.2 ⟨h, rfl⟩
    cases c <;> first | exact absurd rfl hc | skip
    all_goals
      simp only [finish, sepOf, position, bind, Except.bind, toAngle_ang, hcel, toNum]
      rfl
  | sphere a d s h =>
    have hcel : celestial a.rad d.rad = .ok _ := celestial_ok.2 ⟨h, rfl⟩
    simp only [finish, sepOf, position, bind, Except.bind, toAngle_ang, hcel, toNum]
    simp [Kw.left, skyPoint, chord]

theorem position_sky {ra dec : Arg} {o : Option Arg} {k : Kw} {p : (Arg × Arg × Arg) × Kw}
    (h : position (.sky ra dec o) k = .ok p) (hk : p.2 = {}) :
    ∃ a d : Ang, ra = a.arg ∧ dec = d.arg ∧ k = { raU := a.unit, decU := d.unit } ∧ IsDec d.rad ∧
      ∃ r : ℝ, (o = none ∧ r = 1 ∨ o = some (.num r)) ∧
        p.1 = (.num (Real.cos d.rad * Real.cos a.rad * r), .num (Real.cos d.rad * Real.sin a.rad * r), .num (Real.sin d.rad * r)) := by
  simp only [position, bind, bind_ok] at h
  obtain ⟨⟨a, u⟩, ha, ⟨d, v⟩, hd, ⟨x, y, z⟩, hc, h⟩ := h
  obtain ⟨hI, hp⟩ := celestial_ok.1 hc
  simp only [Prod.mk.injEq] at hp
  obtain ⟨rfl, rfl, rfl⟩ := hp
  have fin : p.2 = { k with raU := u, decU := v } ∧ ∃ r : ℝ, (o = none ∧ r = 1 ∨ o = some (.num r)) ∧
      p.1 = (.num (Real.cos d * Real.cos a * r), .num (Real.cos d * Real.sin a * r), .num (Real.sin d * r)) := by
    rcases o with _ | r
    · simp only [Except.ok.injEq] at h
      subst h
      exact ⟨rfl, 1, .inl ⟨rfl, rfl⟩, by simp⟩
    · simp only [bind_ok, toNum_ok, Except.ok.injEq] at h
      obtain ⟨r, rfl, h⟩ := h
      subst h
      exact ⟨rfl, r, .inr rfl, rfl⟩
  obtain ⟨h2, r, hr, h1⟩ := fin
  rw [hk] at h2
  obtain ⟨x, y, z, kra, kdec, kr, sep, raU, decU, sepU, other⟩ := k
  simp only [Kw.mk.injEq] at h2
  obtain ⟨rfl, rfl, rfl, rfl, rfl, rfl, rfl, rfl, rfl, rfl, rfl⟩ := h2
  obtain ⟨g, rfl, hu, rfl⟩ := toAngle_none ha
  obtain ⟨g', rfl, hv, rfl⟩ := toAngle_none hd
  simp only at hu hv
  exact ⟨g, g', rfl, rfl, by rw [hu, hv], hI, r, hr, h1⟩

theorem of_finish {c : Coords} {l : Loc} {s : Arg} {k : Kw} {res : ℝ × ℝ × ℝ × ℝ} (hl : l.For c) (h : finish c l s k = .ok res) :
    Done c l s k res := by
  simp only [finish, bind, bind_ok] at h
  obtain ⟨⟨s', k'⟩, hs, ⟨⟨x, y, z⟩, k''⟩, hp, h⟩ := h
  rcases Bool.eq_false_or_eq_true k''.left with hk | hk <;> simp only [hk] at h
  · simp at h
  simp only [Bool.false_eq_true, if_false, bind_ok, toNum_ok, Except.ok.injEq] at h
  obtain ⟨X, rfl, Y, rfl, Z, rfl, S, rfl, rfl⟩ := h
  have hk := left_false.1 hk
  subst hk
  cases l with
  | xyz x y z =>
    have hc : c ≠ .sphere := by rintro rfl; exact hl
    have hs : s = .num S ∧ k = k' := by cases c <;> simp_all [sepOf]
    simp only [position, Except.ok.injEq, Prod.mk.injEq] at hp
    obtain ⟨⟨rfl, rfl, rfl⟩, rfl⟩ := hp
    obtain ⟨rfl, rfl⟩ := hs
    exact .xyz c hc X Y Z S
  | sky ra dec o =>
    obtain ⟨a, d, rfl, rfl, rfl, hI, r, hr, hX⟩ := position_sky hp rfl
    simp only [Prod.mk.injEq, Arg.num.injEq] at hX
    obtain ⟨rfl, rfl, rfl⟩ := hX
    by_cases hc : c = .sphere
    · subst hc
      rcases hr with ⟨rfl, rfl⟩ | rfl
      · simp only [sepOf, bind, bind_ok, Except.ok.injEq, Prod.mk.injEq, Arg.num.injEq] at hs
        obtain ⟨⟨t, u⟩, ht, rfl, hk⟩ := hs
        obtain ⟨x, y, z, kra, kdec, kr, sep, raU, decU, sepU, other⟩ := k
        simp only [Kw.mk.injEq] at hk
        obtain ⟨rfl, rfl, rfl, rfl, rfl, rfl, rfl, rfl, rfl, rfl, rfl⟩ := hk
        obtain ⟨g, rfl, hu, rfl⟩ := toAngle_none ht
        simp only at hu
        subst hu
        exact .sphere a d g hI
      · exact hl.elim
    · have hs : s = .num S ∧ k = { raU := a.unit, decU := d.unit } := by cases c <;> simp_all [sepOf]
      obtain ⟨rfl, rfl⟩ := hs
      rcases hr with ⟨rfl, -⟩ | rfl
      · cases c <;> first | exact absurd rfl hc | exact hl.elim
      · exact .sky c hc a d r S hI

theorem arg_angle {g : Ang} {t : ℝ} (h : Arg.angle t = g.arg) : g = .angle t := by
  cases g <;> simp_all [Ang.arg]

theorem fin_cases {c : Coords} {l : Loc} {s : Arg} {k : Kw} {res : ℝ × ℝ × ℝ × ℝ} (h : Done c l s k res) :
    (∃ x y z t, c ≠ .sphere ∧ l = .xyz (.num x) (.num y) (.num z) ∧ s = .num t ∧ k = {} ∧ res = (x, y, z, t)) ∨
    (∃ (a d : Ang) (r t : ℝ), c ≠ .sphere ∧ IsDec d.rad ∧ l = .sky a.arg d.arg (some (.num r)) ∧ s = .num t ∧
      k = { raU := a.unit, decU := d.unit } ∧ res = skyPoint a.rad d.rad r t) ∨
    (∃ a d t : Ang, c = .sphere ∧ IsDec d.rad ∧ l = .sky a.arg d.arg none ∧ s = t.arg ∧
      k = { raU := a.unit, decU := d.unit, sepU := t.unit } ∧ res = skyPoint a.rad d.rad 1 (chord t.rad)) := by
  cases h with
  | xyz _ hc x y z s => exact .inl ⟨x, y, z, s, hc, rfl, rfl, rfl, rfl⟩
  | sky _ hc a d r s h => exact .inr (.inl ⟨a, d, r, s, hc, h, rfl, rfl, rfl, rfl⟩)
  | sphere a d s h => exact .inr (.inr ⟨a, d, s, rfl, h, rfl, rfl, rfl, rfl⟩)

/-- On the plane. -/
theorem call_flat {args : List Arg} {k k' : Kw} {l : Loc} {s : Arg} {res : ℝ × ℝ × ℝ × ℝ} (h : locFlat args k = .ok (l, s, k'))
    (hf : Done .flat l s k' res) : Call .flat args k res := by
  obtain ⟨kx, ky, kz, kra, kdec, kr, ksep, raU, decU, sepU, other⟩ := k
  unfold locFlat at h
  split at h <;> simp only [bind, bind_ok, need_ok, Except.ok.injEq, Prod.mk.injEq, reduceCtorEq] at h
  · obtain ⟨x, rfl, y, rfl, s, rfl, rfl, rfl, rfl⟩ := h
    rcases fin_cases hf with ⟨x, y, z, t, -, hl, rfl, hk, rfl⟩ | ⟨a, d, r, t, -, -, hl, -⟩ | ⟨a, d, t, hc, -⟩
    · simp only [Loc.xyz.injEq, Arg.num.injEq, Kw.mk.injEq, true_and] at hl hk
      obtain ⟨rfl, rfl, rfl⟩ := hl
      obtain ⟨rfl, rfl, rfl, rfl, rfl, rfl, rfl, rfl⟩ := hk
      exact .flat0 x y t
    · cases hl
    · cases hc
  · obtain ⟨s, rfl, rfl, rfl, rfl⟩ := h
    rcases fin_cases hf with ⟨x, y, z, t, -, hl, rfl, hk, rfl⟩ | ⟨a, d, r, t, -, -, hl, -⟩ | ⟨a, d, t, hc, -⟩
    · simp only [Loc.xyz.injEq, Arg.num.injEq, Kw.mk.injEq, true_and] at hl hk
      obtain ⟨rfl, rfl, rfl⟩ := hl
      obtain ⟨rfl, rfl, rfl, rfl, rfl, rfl, rfl, rfl, rfl, rfl⟩ := hk
      exact .flat2 x y t
    · cases hl
    · cases hc
  · obtain ⟨rfl, rfl, rfl⟩ := h
    rcases fin_cases hf with ⟨x, y, z, t, -, hl, rfl, hk, rfl⟩ | ⟨a, d, r, t, -, -, hl, -⟩ | ⟨a, d, t, hc, -⟩
    · simp only [Loc.xyz.injEq, Arg.num.injEq] at hl
      obtain ⟨rfl, rfl, rfl⟩ := hl
      rw [hk]
      exact .flat3 x y t
    · cases hl
    · cases hc

/-- On the sphere. -/
theorem call_sphere {args : List Arg} {k k' : Kw} {l : Loc} {s : Arg} {res : ℝ × ℝ × ℝ × ℝ} (h : locSphere args k = .ok (l, s, k'))
    (hf : Done .sphere l s k' res) : Call .sphere args k res := by
  rcases fin_cases hf with ⟨x, y, z, t, hc, -⟩ | ⟨a, d, r, t, hc, -⟩ | ⟨a, d, t, -, hI, rfl, rfl, rfl, rfl⟩
  · exact absurd rfl hc
  · exact absurd rfl hc
  obtain ⟨kx, ky, kz, kra, kdec, kr, ksep, raU, decU, sepU, other⟩ := k
  unfold locSphere at h
  split at h <;> simp only [bind, bind_ok, need_ok, Except.ok.injEq, Prod.mk.injEq, Loc.sky.injEq, Kw.mk.injEq, reduceCtorEq,
    true_and, and_true] at h
  · obtain ⟨_, rfl, _, rfl, _, rfl, ⟨rfl, rfl⟩, rfl, rfl, rfl, rfl, rfl, rfl, rfl, rfl, rfl⟩ := h
    exact .sky _ _ _ _ _ (.named a d t) hI
  · obtain ⟨_, rfl, ⟨ha, hd⟩, rfl, rfl, rfl, rfl, rfl, rfl, rfl, rfl, rfl, rfl, rfl⟩ := h
    obtain rfl := arg_angle ha
    obtain rfl := arg_angle hd
    exact .sky _ _ _ _ _ (.coord _ _ t) hI
  · obtain ⟨⟨ha, hd⟩, rfl, rfl, rfl, rfl, rfl, rfl, rfl, rfl, rfl, rfl, rfl, rfl⟩ := h
    obtain rfl := arg_angle ha
    obtain rfl := arg_angle hd
    exact .sky _ _ _ _ _ (.coordAll _ _ t) hI
  · obtain ⟨_, rfl, ⟨rfl, rfl⟩, rfl, rfl, rfl, rfl, rfl, rfl, rfl, rfl, rfl, rfl, rfl⟩ := h
    exact .sky _ _ _ _ _ (.radec a d t) hI
  · obtain ⟨⟨rfl, rfl⟩, rfl, rfl, rfl, rfl, rfl, rfl, rfl, rfl, rfl, rfl, rfl, rfl⟩ := h
    exact .sky _ _ _ _ _ (.all a d t) hI

/-- In space. -/
theorem call_3 {args : List Arg} {k k' : Kw} {l : Loc} {s : Arg} {res : ℝ × ℝ × ℝ × ℝ} (h : loc3 args k = .ok (l, s, k'))
    (hf : Done .threeD l s k' res) : Call .threeD args k res := by
  obtain ⟨kx, ky, kz, kra, kdec, kr, ksep, raU, decU, sepU, other⟩ := k
  rcases fin_cases hf with ⟨x, y, z, t, -, rfl, rfl, rfl, rfl⟩ | ⟨a, d, r, t, -, hI, rfl, rfl, rfl, rfl⟩ | ⟨a, d, t, hc, -⟩
  · unfold loc3 at h
    split at h
    · split at h <;> simp only [bind, bind_ok, need_ok, Except.ok.injEq, Prod.mk.injEq, Loc.xyz.injEq, Kw.mk.injEq, reduceCtorEq,
        true_and, and_true, false_and, and_false, exists_false] at h
      rename_i hx
      simp only at hx
      subst hx
      obtain ⟨_, rfl, _, rfl, _, rfl, ⟨rfl, rfl, rfl⟩, rfl, rfl, rfl, rfl, rfl, rfl, rfl, rfl⟩ := h
      exact .xyz0 x y z t
    all_goals try simp only [bind, bind_ok, need_ok, Except.ok.injEq, Prod.mk.injEq, reduceCtorEq,
        true_and, and_true, false_and, and_false, exists_false] at h
    · obtain ⟨_, rfl, h⟩ := h
      split at h <;> simp only [Except.ok.injEq, Prod.mk.injEq, Loc.xyz.injEq, Kw.mk.injEq, reduceCtorEq,
        true_and, and_true, false_and, and_false] at h
      obtain ⟨⟨rfl, rfl, rfl⟩, rfl, rfl, rfl, rfl, rfl, rfl, rfl, rfl, rfl, rfl, rfl⟩ := h
      exact .xyz3 x y z t
    · split at h <;> simp only [Except.ok.injEq, Prod.mk.injEq, Loc.xyz.injEq, Kw.mk.injEq, reduceCtorEq,
        true_and, and_true, false_and, and_false] at h
      obtain ⟨⟨rfl, rfl, rfl⟩, rfl, rfl, rfl, rfl, rfl, rfl, rfl, rfl, rfl, rfl, rfl, rfl⟩ := h
      exact .xyz4 x y z t
  · unfold loc3 at h
    split at h
    · split at h <;> simp only [bind, bind_ok, need_ok, Except.ok.injEq, Prod.mk.injEq, Loc.sky.injEq, Option.some.injEq, Kw.mk.injEq,
        reduceCtorEq, true_and, and_true, false_and, and_false, exists_false] at h
      rename_i hx
      simp only at hx
      subst hx
      obtain ⟨_, rfl, _, rfl, _, rfl, _, rfl, ⟨rfl, rfl, rfl⟩, rfl, -, rfl, rfl, rfl, rfl, rfl, rfl⟩ := h
      exact .radec0 a d r t hI
    all_goals try simp only [bind, bind_ok, need_ok, Except.ok.injEq, Prod.mk.injEq, Loc.sky.injEq, Option.some.injEq, Kw.mk.injEq,
        reduceCtorEq, true_and, and_true, false_and, and_false, exists_false] at h
    · obtain ⟨_, rfl, _, rfl, ⟨ha, hd, rfl⟩, rfl, rfl, rfl, rfl, rfl, rfl, rfl, rfl, rfl, rfl⟩ := h
      obtain rfl := arg_angle ha
      obtain rfl := arg_angle hd
      exact .coord1 _ _ r t hI
    · obtain ⟨_, rfl, ⟨ha, hd, rfl⟩, rfl, rfl, rfl, rfl, rfl, rfl, rfl, rfl, rfl, rfl, rfl⟩ := h
      obtain rfl := arg_angle ha
      obtain rfl := arg_angle hd
      exact .coord2 _ _ r t hI
    · obtain ⟨_, rfl, _, rfl, ⟨rfl, rfl, rfl⟩, rfl, rfl, rfl, rfl, rfl, rfl, rfl, rfl, rfl, rfl⟩ := h
      exact .radec2 a d r t hI
    · obtain ⟨⟨ha, hd, rfl⟩, rfl, rfl, rfl, rfl, rfl, rfl, rfl, rfl, rfl, rfl, rfl, rfl⟩ := h
      obtain rfl := arg_angle ha
      obtain rfl := arg_angle hd
      exact .coord3 _ _ r t hI
    · obtain ⟨_, rfl, h⟩ := h
      split at h <;> simp only [Except.ok.injEq, Prod.mk.injEq, Loc.sky.injEq, Option.some.injEq, Kw.mk.injEq, reduceCtorEq,
        true_and, and_true, false_and, and_false] at h
      obtain ⟨⟨rfl, rfl, rfl⟩, rfl, rfl, rfl, rfl, rfl, rfl, rfl, rfl, rfl, rfl, rfl⟩ := h
      exact .radec3 a d r t hI
    · split at h <;> simp only [Except.ok.injEq, Prod.mk.injEq, Loc.sky.injEq, Option.some.injEq, Kw.mk.injEq, reduceCtorEq,
        true_and, and_true, false_and, and_false] at h
      obtain ⟨⟨rfl, rfl, rfl⟩, rfl, rfl, rfl, rfl, rfl, rfl, rfl, rfl, rfl, rfl, rfl, rfl⟩ := h
      exact .radec4 a d r t hI
  · cases hc

theorem locate_for {c : Coords} {args : List Arg} {k k' : Kw} {l : Loc} {s : Arg} (h : locate c args k = .ok (l, s, k')) : l.For c := by
  cases c <;> simp only [locate] at h
  · unfold locFlat at h
    split at h <;> simp only [bind, bind_ok, Except.ok.injEq, Prod.mk.injEq, reduceCtorEq] at h
    · obtain ⟨_, -, _, -, _, -, rfl, -⟩ := h; trivial
    · obtain ⟨_, -, rfl, -⟩ := h; trivial
    · obtain ⟨rfl, -⟩ := h; trivial
  · unfold loc3 at h
    split at h
    · split at h <;> simp only [bind, bind_ok, Except.ok.injEq, Prod.mk.injEq] at h
      · obtain ⟨_, -, _, -, _, -, rfl, -⟩ := h; trivial
      · obtain ⟨_, -, _, -, _, -, _, -, rfl, -⟩ := h; trivial
    all_goals try simp only [bind, bind_ok, Except.ok.injEq, Prod.mk.injEq, reduceCtorEq] at h
    · obtain ⟨_, -, _, -, rfl, -⟩ := h; trivial
    · obtain ⟨_, -, rfl, -⟩ := h; trivial
    · obtain ⟨_, -, _, -, rfl, -⟩ := h; trivial
    · obtain ⟨rfl, -⟩ := h; trivial
    · obtain ⟨_, -, h⟩ := h
      split at h <;> (simp only [Except.ok.injEq, Prod.mk.injEq] at h; obtain ⟨rfl, -⟩ := h; trivial)
    · split at h <;> (simp only [Except.ok.injEq, Prod.mk.injEq] at h; obtain ⟨rfl, -⟩ := h; trivial)
  · unfold locSphere at h
    split at h <;> simp only [bind, bind_ok, Except.ok.injEq, Prod.mk.injEq, reduceCtorEq] at h
    · obtain ⟨_, -, _, -, _, -, rfl, -⟩ := h; trivial
    · obtain ⟨_, -, rfl, -⟩ := h; trivial
    · obtain ⟨rfl, -⟩ := h; trivial
    · obtain ⟨_, -, rfl, -⟩ := h; trivial
    · obtain ⟨rfl, -⟩ := h; trivial

theorem call_of_parse {c : Coords} {args : List Arg} {k : Kw} {res : ℝ × ℝ × ℝ × ℝ} (h : parse c args k = .ok res) :
    Call c args k res := by
  simp only [parse, bind, bind_ok] at h
  obtain ⟨⟨l, s, k'⟩, h1, h2⟩ := h
  have hf := of_finish (locate_for h1) h2
  cases c with
  | flat => exact call_flat h1 hf
  | threeD => exact call_3 h1 hf
  | sphere => exact call_sphere h1 hf

theorem parse_of_call {c : Coords} {args : List Arg} {k : Kw} {res : ℝ × ℝ × ℝ × ℝ} (h : Call c args k res) :
    parse c args k = .ok res := by
  have key : ∀ {l s k'}, locate c args k = .ok (l, s, k') → Done c l s k' res → parse c args k = .ok res := by
    intro l s k' h1 h2
    simp only [parse, bind, bind_ok]
    exact ⟨_, h1, finish_of h2⟩
  cases h with
  | flat3 x y s => exact key rfl (.xyz _ (by simp) x y 0 s)
  | flat2 x y s => exact key rfl (.xyz _ (by simp) x y 0 s)
  | flat0 x y s => exact key rfl (.xyz _ (by simp) x y 0 s)
  | xyz4 x y z s => exact key rfl (.xyz _ (by simp) x y z s)
  | xyz3 x y z s => exact key rfl (.xyz _ (by simp) x y z s)
  | xyz0 x y z s => exact key rfl (.xyz _ (by simp) x y z s)
  | radec4 a d r s h => cases a <;> cases d <;> exact key rfl (.sky _ (by simp) _ _ r s h)
  | radec3 a d r s h => cases a <;> cases d <;> exact key rfl (.sky _ (by simp) _ _ r s h)
  | radec2 a d r s h => cases a <;> cases d <;> exact key rfl (.sky _ (by simp) _ _ r s h)
  | radec0 a d r s h => exact key rfl (.sky _ (by simp) a d r s h)
  | coord3 a d r s h => exact key rfl (.sky _ (by simp) (.angle a) (.angle d) r s h)
  | coord2 a d r s h => exact key rfl (.sky _ (by simp) (.angle a) (.angle d) r s h)
  | coord1 a d r s h => exact key rfl (.sky _ (by simp) (.angle a) (.angle d) r s h)
  | sky _ _ a d s h hd =>
    cases h with
    | all => cases a <;> cases d <;> exact key rfl (.sphere _ _ s hd)
    | radec => cases a <;> cases d <;> exact key rfl (.sphere _ _ s hd)
    | named => exact key rfl (.sphere a d s hd)
    | coordAll a d => exact key rfl (.sphere (.angle a) (.angle d) s hd)
    | coord a d => exact key rfl (.sphere (.angle a) (.angle d) s hd)

/-! ### Errors -/

/-- Only TypeError and ValueError. -/
def Soft {α : Type} (x : Except PyErr α) : Prop := ∀ e, x = .error e → e = .typeError ∨ e = .valueError

theorem soft_ok {α : Type} (a : α) : Soft (Except.ok a : Except PyErr α) := fun _ h => nomatch h

theorem soft_type {α : Type} : Soft (Except.error .typeError : Except PyErr α) := fun _ h => by cases h; exact .inl rfl

theorem soft_value {α : Type} : Soft (Except.error .valueError : Except PyErr α) := fun _ h => by cases h; exact .inr rfl

theorem soft_bind {α β : Type} {x : Except PyErr α} {f : α → Except PyErr β} (hx : Soft x) (hf : ∀ a, Soft (f a)) : Soft (x >>= f) := by
  cases x with
  | error e => exact fun e' h => hx e' (by cases h; rfl)
  | ok a => exact hf a

theorem soft_need {α : Type} (o : Option α) : Soft (need o) := by
  cases o
  · exact soft_type
  · exact soft_ok _

theorem soft_num (a : Arg) : Soft (toNum a) := by
  cases a
  · exact soft_ok _
  · exact soft_type
  · exact soft_type

theorem soft_angle (a : Arg) (u : Option (Option ℝ)) : Soft (toAngle a u) := by
  rcases a with _ | _ | _ <;> rcases u with _ | _ | _ <;> first | exact soft_ok _ | exact soft_type | exact soft_value

theorem soft_celestial (a d : ℝ) : Soft (celestial a d) := by
  unfold celestial
  split
  · exact soft_ok _
  · exact soft_value

theorem soft_parse (c : Coords) (args : List Arg) (k : Kw) : Soft (parse c args k) := by
  refine soft_bind ?_ fun ⟨l, s, k⟩ => ?_
  · cases c <;> simp only [locate]
    · unfold locFlat
      split <;> repeat' first | exact soft_ok _ | exact soft_type | refine soft_bind (soft_need _) fun _ => ?_
    · unfold loc3
      split <;> repeat' first | exact soft_ok _ | exact soft_type | refine soft_bind (soft_need _) fun _ => ?_ | split
    · unfold locSphere
      split <;> repeat' first | exact soft_ok _ | exact soft_type | refine soft_bind (soft_need _) fun _ => ?_
  · refine soft_bind ?_ fun ⟨s, k⟩ => soft_bind ?_ fun ⟨⟨x, y, z⟩, k⟩ => ?_
    · cases c
      · exact soft_ok _
      · exact soft_ok _
      · exact soft_bind (soft_angle _ _) fun _ => soft_ok _
    · cases l with
      | xyz => exact soft_ok _
      | sky ra dec r =>
        refine soft_bind (soft_angle _ _) fun _ => soft_bind (soft_angle _ _) fun _ => soft_bind (soft_celestial _ _) fun _ => ?_
        cases r with
        | none => exact soft_ok _
        | some r => exact soft_bind (soft_num _) fun _ => soft_ok _
    · dsimp only
      split
      · exact soft_type
      · exact soft_bind (soft_num _) fun _ => soft_bind (soft_num _) fun _ => soft_bind (soft_num _) fun _ =>
          soft_bind (soft_num _) fun _ => soft_ok _

end NearArgs
end TreeCorr

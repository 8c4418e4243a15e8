/-
The generic point formulas are parametric: a relation between three types of field elements that the
operations respect is respected by the formulas.
-/
import Verif.Model.P256Mult

namespace Verif.X64.P256

/-- `R` is respected by multiplication. -/
structure MulRel {F G H : Type} [Ops F] [Ops G] [Ops H] (R : F → G → H → Prop) : Prop where
  mul : ∀ {a b c a' b' c'}, R a b c → R a' b' c' → R (mul a a') (mul b b') (mul c c')

/-- `R` is respected by all operations. -/
structure OpsRel {F G H : Type} [Ops F] [Ops G] [Ops H] (R : F → G → H → Prop) : Prop
    extends MulRel R where
  sub : ∀ {a b c a' b' c'}, R a b c → R a' b' c' → R (sub a a') (sub b b') (sub c c')
  add : ∀ {a b c a' b' c'}, R a b c → R a' b' c' → R (add a a') (add b b') (add c c')
  half : ∀ {a b c}, R a b c → R (half a) (half b) (half c)
  neg : ∀ {a b c}, R a b c → R (neg a) (neg b) (neg c)
  negA : ∀ {a b c}, R a b c → R (negA a) (negA b) (negA c)
  zero : R Ops.zero Ops.zero Ops.zero
  one : R Ops.one Ops.one Ops.one

/-- The relation for points. -/
structure JRel {F G H : Type} (R : F → G → H → Prop) (o : Jac F) (v : Jac G) (j : Jac H) :
    Prop where
  x : R o.x v.x j.x
  y : R o.y v.y j.y
  z : R o.z v.z j.z

section
variable {F G H : Type} [Ops F] [Ops G] [Ops H] {R : F → G → H → Prop}

theorem MulRel.sq (hR : MulRel R) {a b c} (h : R a b c) : R (sq a) (sq b) (sq c) := hR.mul h h

theorem OpsRel.dbl (hR : OpsRel R) {a b c} (h : R a b c) : R (dbl a) (dbl b) (dbl c) := hR.add h h

theorem MulRel.sqN (hR : MulRel R) {a b c} (h : R a b c) (n : Nat) :
    R (sqN n a) (sqN n b) (sqN n c) := by
  induction n with
  | zero => exact h
  | succ n ih => exact hR.sq ih

theorem MulRel.invP (hR : MulRel R) {a b c} (h : R a b c) : R (invP a) (invP b) (invP c) := by
  have p2 := hR.mul (hR.sq h) h
  have p4 := hR.mul (hR.sq (hR.sq p2)) p2
  have p8 := hR.mul (hR.sqN (hR.sq p4) 3) p4
  have p16 := hR.mul (hR.sqN (hR.sq p8) 7) p8
  have p32 := hR.mul (hR.sqN (hR.sq p16) 15) p16
  have o1 := hR.mul (hR.sqN (hR.sq p16) 7) p8
  have o2 := hR.mul (hR.sqN o1 4) p4
  have o3 := hR.mul (hR.sqN o2 2) p2
  have o4 := hR.sq (hR.mul (hR.sq o3) h)
  have o5 := hR.mul (hR.sqN o4 32) p32
  have o6 := hR.mul (hR.sqN o5 32) p32
  have o7 := hR.mul (hR.sqN o6 32) p32
  have o8 := hR.mul (hR.sqN o7 32) p32
  have o9 := hR.mul (hR.sqN o8 64) p32
  have o10 := hR.mul (hR.sqN o9 16) p16
  have o11 := hR.mul (hR.sqN o10 8) p8
  have o12 := hR.mul (hR.sqN o11 4) p4
  have o13 := hR.mul (hR.sqN o12 2) p2
  exact hR.mul (hR.sqN o13 2) h

variable {a b : Jac F} {a' b' : Jac G} {a'' b'' : Jac H}

theorem JRel.toAffine (hR : MulRel R) (ha : JRel R a a' a'') :
    R (toAffine a).1 (toAffine a').1 (toAffine a'').1 ∧
      R (toAffine a).2 (toAffine a').2 (toAffine a'').2 := by
  have zInv := hR.invP ha.z
  have zInvSq := hR.sq zInv
  exact ⟨hR.mul ha.x zInvSq, hR.mul ha.y (hR.mul zInv zInvSq)⟩

theorem JRel.zero (hR : OpsRel R) : JRel R ⟨Ops.zero, Ops.zero, Ops.zero⟩
    ⟨Ops.zero, Ops.zero, Ops.zero⟩ ⟨Ops.zero, Ops.zero, Ops.zero⟩ := ⟨hR.zero, hR.zero, hR.zero⟩

theorem JRel.norm (hR : OpsRel R) (ha : JRel R a a' a'') : JRel R (norm a) (norm a') (norm a'') :=
  ⟨(ha.toAffine hR.toMulRel).1, (ha.toAffine hR.toMulRel).2, hR.one⟩

theorem JRel.add (hR : OpsRel R) (ha : JRel R a a' a'') (hb : JRel R b b' b'') :
    JRel R (pointAdd a b) (pointAdd a' b') (pointAdd a'' b'') := by
  have z2sq := hR.sq hb.z
  have s1 := hR.mul (hR.mul z2sq hb.z) ha.y
  have z1sq := hR.sq ha.z
  have s2 := hR.mul (hR.mul z1sq ha.z) hb.y
  have r := hR.sub s2 s1
  have u1 := hR.mul z2sq ha.x
  have u2 := hR.mul z1sq hb.x
  have h := hR.sub u2 u1
  have rsq := hR.sq r
  have hsq := hR.sq h
  have hcub := hR.mul hsq h
  have w := hR.mul hcub s1
  have v := hR.mul hsq u1
  have x3 := hR.sub (hR.sub rsq (hR.dbl v)) hcub
  exact ⟨x3, hR.sub (hR.mul (hR.sub v x3) r) w, hR.mul (hR.mul ha.z hb.z) h⟩

theorem JRel.addAffine (hR : OpsRel R) (ha : JRel R a a' a'') {x x' x'' y y' y''}
    (hx : R x x' x'') (hy : R y y' y'') :
    JRel R (addAffine a x y) (addAffine a' x' y') (addAffine a'' x'' y'') := by
  have z1sq := hR.sq ha.z
  have h := hR.sub (hR.mul z1sq hx) ha.x
  have r := hR.sub (hR.mul (hR.mul z1sq ha.z) hy) ha.y
  have rsq := hR.sq r
  have hsq := hR.sq h
  have hcub := hR.mul hsq h
  have w := hR.mul hcub ha.y
  have v := hR.mul ha.x hsq
  have x3 := hR.sub (hR.sub rsq (hR.dbl v)) hcub
  exact ⟨x3, hR.sub (hR.mul (hR.sub v x3) r) w, hR.mul h ha.z⟩

theorem JRel.pointAddAffine (hR : OpsRel R) (ha : JRel R a a' a'') {x x' x'' y y' y''}
    (hx : R x x' x'') (hy : R y y' y'') (sign : Bool) (sel zero : Nat) :
    JRel R (pointAddAffine Ops.one a x y sign sel zero)
      (pointAddAffine Ops.one a' x' y' sign sel zero)
      (pointAddAffine Ops.one a'' x'' y'' sign sel zero) := by
  have hy' : R (if sign then X64.P256.negA y else y) (if sign then X64.P256.negA y' else y')
      (if sign then X64.P256.negA y'' else y'') := by
    cases sign
    · exact hy
    · exact hR.negA hy
  unfold X64.P256.pointAddAffine
  dsimp only
  split
  · exact ⟨hx, hy', hR.one⟩
  · split
    · exact ha
    · exact ha.addAffine hR hx hy'

theorem JRel.double (hR : OpsRel R) (ha : JRel R a a' a'') :
    JRel R (pointDouble a) (pointDouble a') (pointDouble a'') := by
  have zsq := hR.sq ha.z
  have m0 := hR.add zsq ha.x
  have m1 := hR.mul (hR.sub ha.x zsq) m0
  have m := hR.add m1 (hR.dbl m1)
  have s0 := hR.sq (hR.dbl ha.y)
  have y4 := hR.half (hR.sq s0)
  have s := hR.mul ha.x s0
  have x3 := hR.sub (hR.sq m) (hR.dbl s)
  exact ⟨x3, hR.sub (hR.mul (hR.sub s x3) m) y4, hR.dbl (hR.mul ha.z ha.y)⟩

/-! ### The multiplications -/

/-- The relation for tables. -/
def TRel (R : F → G → H → Prop) (l : List (Jac F)) (l' : List (Jac G)) (l'' : List (Jac H)) :
    Prop :=
  ∀ i, JRel R (l.getD i ⟨Ops.zero, Ops.zero, Ops.zero⟩)
    (l'.getD i ⟨Ops.zero, Ops.zero, Ops.zero⟩) (l''.getD i ⟨Ops.zero, Ops.zero, Ops.zero⟩)

theorem TRel.nil (hR : OpsRel R) : TRel R [] [] [] := fun _ => JRel.zero hR

theorem TRel.cons {l l' l''} (h : JRel R a a' a'') (ht : TRel R l l' l'') :
    TRel R (a :: l) (a' :: l') (a'' :: l'') := by
  intro i
  cases i with
  | zero => exact h
  | succ i => exact ht i

theorem JRel.precomp (hR : OpsRel R) (e1 : JRel R a a' a'') :
    TRel R (precomp a) (precomp a') (precomp a'') := by
  have e2 := e1.double hR
  have e4 := e2.double hR
  have e8 := e4.double hR
  have e16 := e8.double hR
  have e3 := e2.add hR e1
  have e5 := e4.add hR e1
  have e9 := e8.add hR e1
  have e6 := e3.double hR
  have e10 := e5.double hR
  have e7 := e6.add hR e1
  have e11 := e10.add hR e1
  have e12 := e6.double hR
  have e14 := e7.double hR
  have e13 := e12.add hR e1
  have e15 := e14.add hR e1
  exact .cons e1 <| .cons e2 <| .cons e3 <| .cons e4 <| .cons e5 <| .cons e6 <| .cons e7 <|
    .cons e8 <| .cons e9 <| .cons e10 <| .cons e11 <| .cons e12 <| .cons e13 <| .cons e14 <|
    .cons e15 <| .cons e16 <| .nil hR

theorem TRel.select (hR : OpsRel R) {l l' l''} (h : TRel R l l' l'') (idx : W) :
    JRel R (selectVal l idx) (selectVal l' idx) (selectVal l'' idx) := by
  unfold selectVal
  split
  · exact h _
  · exact JRel.zero hR

theorem OpsRel.negVal (hR : OpsRel R) {a b c} (h : R a b c) (cond : W) :
    R (negVal a cond) (negVal b cond) (negVal c cond) := by
  unfold X64.P256.negVal
  split
  · exact h
  · exact hR.neg h

theorem JRel.mov (ha : JRel R a a' a'') (hb : JRel R b b' b'') (c : W) :
    JRel R (movVal a b c) (movVal a' b' c) (movVal a'' b'' c) := by
  unfold movVal
  split
  · exact hb
  · exact ha

theorem multStep_zero (table : List (Jac F)) (st : Jac F × W) (w : W) :
    (multStep table st w).2 = st.2 ||| (boothW5 w).1 := rfl

theorem JRel.multStep (hR : OpsRel R) {l l' l''} (h : TRel R l l' l'') (hp : JRel R a a' a'')
    (zero w : W) : JRel R (multStep l (a, zero) w).1 (multStep l' (a', zero) w).1
      (multStep l'' (a'', zero) w).1 := by
  have p := ((((hp.double hR).double hR).double hR).double hR).double hR
  have t := h.select hR (boothW5 w).1
  have t0 : JRel R ⟨(selectVal l (boothW5 w).1).x, negVal (selectVal l (boothW5 w).1).y (boothW5 w).2,
      (selectVal l (boothW5 w).1).z⟩
    ⟨(selectVal l' (boothW5 w).1).x, negVal (selectVal l' (boothW5 w).1).y (boothW5 w).2,
      (selectVal l' (boothW5 w).1).z⟩
    ⟨(selectVal l'' (boothW5 w).1).x, negVal (selectVal l'' (boothW5 w).1).y (boothW5 w).2,
      (selectVal l'' (boothW5 w).1).z⟩ := ⟨t.x, hR.negVal t.y (boothW5 w).2, t.z⟩
  exact ((p.add hR t0).mov p _).mov t0 _

/-- Related states with the same flag. -/
def StRel (R : F → G → H → Prop) (s : Jac F × W) (s' : Jac G × W) (s'' : Jac H × W) : Prop :=
  JRel R s.1 s'.1 s''.1 ∧ s'.2 = s.2 ∧ s''.2 = s.2

theorem StRel.step (hR : OpsRel R) {l l' l''} (h : TRel R l l' l'') {s s' s''}
    (hs : StRel R s s' s'') (w : W) :
    StRel R (X64.P256.multStep l s w) (X64.P256.multStep l' s' w) (X64.P256.multStep l'' s'' w) := by
  obtain ⟨p, z⟩ := s
  obtain ⟨p', z'⟩ := s'
  obtain ⟨p'', z''⟩ := s''
  obtain ⟨h1, h2, h3⟩ := hs
  dsimp only at h1 h2 h3
  subst h2 h3
  exact ⟨h1.multStep hR h _ w, rfl, rfl⟩

theorem StRel.foldl {ι : Type} {f : Jac F × W → ι → Jac F × W} {f' : Jac G × W → ι → Jac G × W}
    {f'' : Jac H × W → ι → Jac H × W}
    (hf : ∀ s s' s'' i, StRel R s s' s'' → StRel R (f s i) (f' s' i) (f'' s'' i)) (l : List ι)
    {s s' s''} (hs : StRel R s s' s'') :
    StRel R (l.foldl f s) (l.foldl f' s') (l.foldl f'' s'') := by
  induction l generalizing s s' s'' with
  | nil => exact hs
  | cons i l ih => exact ih (hf _ _ _ i hs)

theorem TRel.scan (hR : OpsRel R) {l l' l''} (T : TRel R l l' l'') (k : Nat) :
    StRel R (multScan l k) (multScan l' k) (multScan l'' k) := by
  unfold multScan
  dsimp only
  generalize List.range 50 = L
  generalize (boothW5 (word k 3 >>> 62 &&& 0x3f)).1 = sel
  refine StRel.foldl ?_ L ?_
  · intro s s' s'' i hs
    exact hs.step hR T _
  · exact ⟨T.select hR _, rfl, rfl⟩

theorem JRel.pointMult (hR : OpsRel R) (h : JRel R a a' a'') (k : Nat) :
    JRel R (pointMult a k) (pointMult a' k) (pointMult a'' k) := by
  unfold X64.P256.pointMult
  dsimp only
  have T := h.precomp hR
  exact ((TRel.scan hR T k).step hR T _).1

theorem JRel.double7 (hR : OpsRel R) (h : JRel R a a' a'') (n : Nat) :
    JRel R (Nat.repeat pointDouble n a) (Nat.repeat pointDouble n a')
      (Nat.repeat pointDouble n a'') := by
  induction n with
  | zero => exact h
  | succ n ih => exact ih.double hR

theorem JRel.tableCol (hR : OpsRel R) (h : JRel R a a' a'') (i : Nat) :
    JRel R (tableCol a i) (tableCol a' i) (tableCol a'' i) := by
  induction i with
  | zero => exact h.norm hR
  | succ i ih => exact (ih.double7 hR 7).norm hR

theorem JRel.tableRow (hR : OpsRel R) (h : JRel R a a' a'') :
    ∀ j, JRel R (tableRow a j) (tableRow a' j) (tableRow a'' j)
  | 0 => h
  | 1 => h.double hR
  | j + 2 => (JRel.tableRow hR h (j + 1)).add hR h

/-- The relation for the tables of the base point. -/
def BRel (R : F → G → H → Prop) (t : Nat → Nat → F × F) (t' : Nat → Nat → G × G) (t'' : Nat → Nat → H × H) :
    Prop := ∀ i j, R (t i j).1 (t' i j).1 (t'' i j).1 ∧ R (t i j).2 (t' i j).2 (t'' i j).2

theorem JRel.baseTable (hR : OpsRel R) (h : JRel R a a' a'') :
    BRel R (baseTable a) (baseTable a') (baseTable a'') := fun i j =>
  ⟨((h.tableRow hR j).tableCol hR i).x, ((h.tableRow hR j).tableCol hR i).y⟩

variable {t : Nat → Nat → F × F} {t' : Nat → Nat → G × G} {t'' : Nat → Nat → H × H}

theorem BRel.select (hR : OpsRel R) (h : BRel R t t' t'') (i : Nat) (idx : W) :
    R (selectBaseVal (t i) idx).1 (selectBaseVal (t' i) idx).1 (selectBaseVal (t'' i) idx).1 ∧
    R (selectBaseVal (t i) idx).2 (selectBaseVal (t' i) idx).2 (selectBaseVal (t'' i) idx).2 := by
  unfold selectBaseVal
  split
  · exact h i _
  · exact ⟨hR.zero, hR.zero⟩

theorem BRel.baseMult (hR : OpsRel R) (h : BRel R t t' t'') (k : Nat) :
    JRel R (baseMult t k) (baseMult t' k) (baseMult t'' k) := by
  unfold X64.P256.baseMult
  dsimp only
  refine (StRel.foldl (fun s s' s'' i hs => ?_) _ ?_).1
  · obtain ⟨p, z⟩ := s
    obtain ⟨p', z'⟩ := s'
    obtain ⟨p'', z''⟩ := s''
    obtain ⟨h1, h2, h3⟩ := hs
    dsimp only at h1 h2 h3
    subst h2 h3
    have hs := h.select hR (i + 1) (boothW7 (window k (7 * (i + 1) - 1) 0xff)).1
    exact ⟨h1.pointAddAffine hR hs.1 hs.2 _ _ _, rfl, rfl⟩
  · have hs := h.select hR 0 (boothW7 ((word k 0 <<< 1) &&& 0xff)).1
    exact ⟨⟨hs.1, hR.negVal hs.2 _, hR.one⟩, rfl, rfl⟩

end

end Verif.X64.P256

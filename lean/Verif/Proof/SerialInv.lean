import Verif.Proof.SerialHeader

/-! # What a successful binary read says about the bytes -/

set_option linter.unusedSectionVars false

namespace Nurbs
open Serial Utils

namespace Serial

theorem leBytes_leNat (l : Bytes) : leBytes l.length (leNat l) = l := by
  induction l with
  | nil => rfl
  | cons b l ih =>
    have hb := b.toNat_lt
    simp only [List.length_cons, leBytes, leNat]
    have h1 : (b.toNat + 256 * leNat l) % 256 = b.toNat := by omega
    have h2 : (b.toNat + 256 * leNat l) / 256 = leNat l := by omega
    rw [h1, h2, ih]
    simp

theorem leNat_lt (l : Bytes) : leNat l < 256 ^ l.length := by
  induction l with
  | nil => simp [leNat]
  | cons b l ih =>
    have hb := b.toNat_lt
    simp only [List.length_cons, leNat, pow_succ]
    omega

theorem intBytes_bytesInt {l : Bytes} (h : l.length = 4) : intBytes (bytesInt l) = l ∧ IsInt (bytesInt l) := by
  have hlt := leNat_lt l
  rw [h] at hlt
  have key : (bytesInt l % 2 ^ 32).toNat = leNat l := by
    unfold bytesInt
    split_ifs with hc <;> omega
  refine ⟨?_, ?_⟩
  · unfold intBytes
    rw [key, ← h, leBytes_leNat]
  · unfold bytesInt IsInt
    split_ifs with hc <;> omega

theorem f64Bytes_bytesF64 {l : Bytes} (h : l.length = 8) : f64Bytes (bytesF64 l) = l := by
  have hlt := leNat_lt l
  rw [h] at hlt
  unfold f64Bytes bytesF64
  rw [BitVec.toNat_ofNat, Nat.mod_eq_of_lt (by omega), ← h, leBytes_leNat]

theorem vec4Bytes_bytesVec4 {l : Bytes} (h : l.length = 32) : vec4Bytes (bytesVec4 l) = l := by
  unfold vec4Bytes bytesVec4
  simp only
  rw [f64Bytes_bytesF64 (by simp; omega), f64Bytes_bytesF64 (by simp; omega), f64Bytes_bytesF64 (by simp; omega),
    f64Bytes_bytesF64 (by simp; omega)]
  conv_rhs => rw [← List.take_append_drop 8 l]
  congr 1
  conv_rhs => rw [← List.take_append_drop 8 (l.drop 8), List.drop_drop]
  congr 1
  conv_rhs => rw [← List.take_append_drop 8 (l.drop (8 + 8)), List.drop_drop]
  congr 1
  rw [List.take_of_length_le (by simp; omega)]

theorem arrBytes_bytesArr {n : ℕ} {l : Bytes} (h : l.length = 8 * n) : arrBytes (bytesArr n l) = l ∧ (bytesArr n l).length = n := by
  induction n generalizing l with
  | zero =>
    have : l = [] := List.length_eq_zero_iff.1 (by omega)
    subst this
    exact ⟨rfl, rfl⟩
  | succ n ih =>
    obtain ⟨h1, h2⟩ := ih (l := l.drop 8) (by simp; omega)
    simp only [bytesArr, arrBytes, List.length_cons, h1, h2, and_true]
    rw [f64Bytes_bytesF64 (by simp; omega), List.take_append_drop]

end Serial

namespace Load
variable {σ τ α β : Type}

theorem read_inv {n : ℕ} {store : Bytes → σ → σ} {o o' : σ} {s s' : IStream} (h : Load.read n store o s = (.ok (), o', s')) :
    ∃ b, b.length = n ∧ s = ⟨b ++ s'.rest, false⟩ ∧ s'.eof = false ∧ o' = store b o := by
  obtain ⟨l, e⟩ := s
  unfold Load.read IStream.read at h
  cases e with
  | true => exact absurd (congrArg Prod.fst h) (by simp)
  | false =>
    by_cases hn : n ≤ l.length
    · simp only [Bool.false_eq_true, if_false, hn, if_true, Prod.mk.injEq, true_and] at h
      obtain ⟨rfl, rfl⟩ := h
      exact ⟨l.take n, by simp; omega, by simp, rfl, rfl⟩
    · exact absurd (congrArg Prod.fst h) (by simp [hn])

theorem zoom_inv {x : Load τ α} {g : σ → τ} {p : τ → σ → σ} {o o' : σ} {s s' : IStream} {a : α}
    (h : Load.zoom g p x o s = (.ok a, o', s')) : ∃ t, x (g o) s = (.ok a, t, s') ∧ o' = p t o := by
  unfold Load.zoom at h
  generalize hx : x (g o) s = y at h
  obtain ⟨r, t, s1⟩ := y
  simp only [Prod.mk.injEq] at h
  obtain ⟨rfl, rfl, rfl⟩ := h
  exact ⟨t, rfl, rfl⟩

theorem intMember_inv {g : σ → ℤ} {p : ℤ → σ → σ} {o o' : σ} {s s' : IStream} (h : readIntMember g p o s = (.ok (), o', s')) :
    ∃ n, IsInt n ∧ s = ⟨intBytes n ++ s'.rest, false⟩ ∧ s'.eof = false ∧ o' = p n o := by
  obtain ⟨t, h1, rfl⟩ := zoom_inv h
  obtain ⟨b, hb, hs, he, rfl⟩ := read_inv h1
  obtain ⟨e1, e2⟩ := intBytes_bytesInt hb
  exact ⟨bytesInt b, e2, by rw [e1]; exact hs, he, by rw [overwrite_full (by rw [intBytes_length, hb])]⟩

theorem intLocal_inv {o o' : σ} {s s' : IStream} {n : ℤ} (h : (readIntLocal : Load σ ℤ) o s = (.ok n, o', s')) :
    IsInt n ∧ s = ⟨intBytes n ++ s'.rest, false⟩ ∧ s'.eof = false ∧ o' = o := by
  have h' : Load.read 4 (fun b (_ : ℤ) => bytesInt b) 0 s = (.ok (), n, s') ∧ o' = o := by
    unfold readIntLocal at h
    unfold Load.read
    generalize s.read 4 = y at h ⊢
    obtain ⟨b, ok, s1⟩ := y
    cases ok <;> simp_all
  obtain ⟨b, hb, hs, he, rfl⟩ := read_inv h'.1
  obtain ⟨e1, e2⟩ := intBytes_bytesInt hb
  exact ⟨e2, by rw [e1]; exact hs, he, h'.2⟩

theorem knots_inv {k k' : KnotVector F64} {s s' : IStream} (h : ReadKnotVectorFromStream k s = (.ok (), k', s')) :
    (k'.Values.length : ℤ) < 2 ^ 31 ∧ s = ⟨(intBytes k'.Values.length ++ arrBytes k'.Values) ++ s'.rest, false⟩ ∧ s'.eof = false := by
  unfold ReadKnotVectorFromStream at h
  obtain ⟨n, k1, s1, h1, h2⟩ := bind_inv h
  obtain ⟨i1, i2, i3, rfl⟩ := intLocal_inv h1
  split_ifs at h2 with hc
  · exact absurd (congrArg Prod.fst h2) (by simp [Load.fail])
  obtain ⟨_, k2, s2, h3, h4⟩ := bind_inv h2
  simp only [Load.modify, Prod.mk.injEq, true_and] at h3
  obtain ⟨rfl, rfl⟩ := h3
  obtain ⟨b, hb, hs, he, rfl⟩ := read_inv h4
  rw [overwrite_full (by rw [arrBytes_length, resize_length, hb])]
  obtain ⟨e1, e2⟩ := arrBytes_bytesArr hb
  simp only [e1, e2]
  have : ((n.toNat : ℕ) : ℤ) = n := Int.toNat_of_nonneg (by omega)
  rw [this]
  refine ⟨i1.2, ?_, he⟩
  rw [i2, hs, List.append_assoc]

theorem vec4_inv {v v' : Vec4 F64} {s s' : IStream} (h : ReadVec4FromStream v s = (.ok (), v', s')) :
    s = ⟨WriteVec4ToStream v' ++ s'.rest, false⟩ ∧ s'.eof = false := by
  obtain ⟨b, hb, hs, he, rfl⟩ := read_inv h
  rw [overwrite_full (by rw [vec4Bytes_length, hb])]
  unfold WriteVec4ToStream
  rw [vec4Bytes_bytesVec4 hb]
  exact ⟨hs, he⟩

theorem points_inv (junk : Vec4 F64) (g : σ → List (Vec4 F64)) (p : List (Vec4 F64) → σ → σ)
    (hgp : ∀ l o, g (p l o) = l) (hpp : ∀ l l' o, p l (p l' o) = p l o) (hpg : ∀ o, p (g o) o = o) {s' : IStream} {o' : σ} (n : ℕ) :
    ∀ (done rest : List (Vec4 F64)) (o : σ) (s : IStream), g o = done ++ rest → rest.length = n → s.eof = false →
      forEach (fun _ i => zoom (fun c => (g c).getD i junk) (fun v c => p ((g c).set i v) c) ReadVec4FromStream)
        (List.range' done.length n) () o s = (.ok (), o', s') →
      ∃ vs : List (Vec4 F64), vs.length = n ∧ o' = p (done ++ vs) o ∧ s = ⟨vs.flatMap WriteVec4ToStream ++ s'.rest, false⟩ ∧ s'.eof = false := by
  induction n with
  | zero =>
    intro done rest o s ho hr he h
    have : rest = [] := List.length_eq_zero_iff.1 hr
    subst this
    simp only [List.range'_zero, forEach, Load.pure, Prod.mk.injEq, true_and] at h
    obtain ⟨rfl, rfl⟩ := h
    refine ⟨[], rfl, by rw [← ho, hpg], ?_, he⟩
    obtain ⟨l, e⟩ := s
    simp only at he
    subst he
    rfl
  | succ n ih =>
    intro done rest o s ho hr he h
    obtain _ | ⟨w, rest⟩ := rest
    · simp at hr
    simp only [List.range'_succ, forEach] at h
    obtain ⟨_, o1, s1, h1, h2⟩ := bind_inv (f := fun b' => forEach _ _ b') h
    obtain ⟨v, h3, rfl⟩ := zoom_inv h1
    obtain ⟨e1, e2⟩ := vec4_inv h3
    obtain ⟨vs, f1, f2, f3, f4⟩ := ih (done ++ [v]) rest (p ((g o).set done.length v) o) s1 (by rw [hgp, ho]; simp) (by simpa using hr) e2 (by
      simp only [List.length_append, List.length_cons, List.length_nil, zero_add]
      exact h2)
    refine ⟨v :: vs, by simp [f1], by rw [f2, hpp]; simp, ?_, f4⟩
    rw [e1, f3]
    simp

end Load

theorem Curve.binary_inv {junk : Vec4 F64} {o c : Curve F64} {s s' : IStream} (h : Curve.loadBinary junk o s = (.ok (), c, s')) :
    IsInt c.Degree ∧ (c.Knots.Values.length : ℤ) < 2 ^ 31 ∧ (c.ControlPoints.length : ℤ) < 2 ^ 31 ∧
      s = ⟨curveBody c ++ s'.rest, false⟩ ∧ s'.eof = false := by
  unfold Curve.loadBinary at h
  obtain ⟨_, o1, s1, h1, h⟩ := Load.bind_inv h
  obtain ⟨d, d1, d2, d3, rfl⟩ := Load.intMember_inv h1
  obtain ⟨_, o2, s2, h2, h⟩ := Load.bind_inv h
  obtain ⟨k, h3, rfl⟩ := Load.zoom_inv h2
  obtain ⟨k1, k2, k3⟩ := Load.knots_inv h3
  obtain ⟨n, o3, s3, h4, h⟩ := Load.bind_inv h
  obtain ⟨n1, n2, n3, rfl⟩ := Load.intLocal_inv h4
  split_ifs at h with hc
  · exact absurd (congrArg Prod.fst h) (by simp [Load.fail])
  obtain ⟨_, o4, s4, h5, h⟩ := Load.bind_inv h
  simp only [Load.modify, Prod.mk.injEq, true_and] at h5
  obtain ⟨rfl, rfl⟩ := h5
  rw [List.range_eq_range'] at h
  obtain ⟨vs, v1, rfl, v3, v4⟩ := Load.points_inv junk (σ := Curve F64) (fun c => c.ControlPoints) (fun l c => { c with ControlPoints := l })
    (fun _ _ => rfl) (fun _ _ _ => rfl) (fun _ => rfl) n.toNat [] _ _ s3 rfl (resize_length _ _ _) n3 h
  have hn : ((vs.length : ℕ) : ℤ) = n := by rw [v1]; exact Int.toNat_of_nonneg (by omega)
  refine ⟨d1, k1, ?_, ?_, v4⟩
  · change ((([] ++ vs : List (Vec4 F64)).length : ℕ) : ℤ) < 2 ^ 31
    rw [List.nil_append, hn]; exact n1.2
  · rw [d2, k2, n2, v3]
    unfold curveBody
    simp only [List.nil_append, hn, List.append_assoc]

theorem Surface.grid_inv {junk : Vec4 F64} {o c : Grid (Vec4 F64)} {s s' : IStream} (h : Surface.loadGrid junk o s = (.ok (), c, s')) :
    0 < c.UCount ∧ 0 < c.VCount ∧ c.UCount * c.VCount < 2 ^ 31 ∧ (c.Values.length : ℤ) = c.UCount * c.VCount ∧
      s = ⟨intBytes c.UCount ++ (intBytes c.VCount ++ (c.Values.flatMap WriteVec4ToStream ++ s'.rest)), false⟩ ∧ s'.eof = false := by
  unfold Surface.loadGrid at h
  obtain ⟨_, o1, s1, h1, h⟩ := Load.bind_inv h
  obtain ⟨u, u1, u2, u3, rfl⟩ := Load.intMember_inv h1
  obtain ⟨_, o2, s2, h2, h⟩ := Load.bind_inv h
  obtain ⟨v, v1, v2, v3, rfl⟩ := Load.intMember_inv h2
  obtain ⟨g, o3, s3, h3, h⟩ := Load.bind_inv h
  simp only [Load.get, Prod.mk.injEq, Except.ok.injEq] at h3
  obtain ⟨rfl, rfl, rfl⟩ := h3
  simp only at h
  split_ifs at h with hc
  · exact absurd (congrArg Prod.fst h) (by simp [Load.fail])
  obtain ⟨n, o4, s4, h4, h⟩ := Load.bind_inv h
  unfold Load.lift Surface.gridCount at h4
  split_ifs at h4 with hg
  · simp only [Prod.mk.injEq, Except.ok.injEq] at h4
    obtain ⟨rfl, rfl, rfl⟩ := h4
    obtain ⟨_, o5, s5, h5, h⟩ := Load.bind_inv h
    simp only [Load.modify, Prod.mk.injEq, true_and] at h5
    obtain ⟨rfl, rfl⟩ := h5
    rw [List.range_eq_range'] at h
    obtain ⟨vs, w1, rfl, w3, w4⟩ := Load.points_inv junk (σ := Grid (Vec4 F64)) (fun c => c.Values) (fun l c => { c with Values := l })
      (fun _ _ => rfl) (fun _ _ _ => rfl) (fun _ => rfl) (u * v).toNat [] _ _ s2 rfl (resize_length _ _ _) v3 h
    rw [not_or, not_le, not_le] at hc
    have hn : ((vs.length : ℕ) : ℤ) = u * v := by rw [w1]; exact Int.toNat_of_nonneg (by nlinarith [hc.1, hc.2])
    refine ⟨hc.1, hc.2, hg.2, by simpa using hn, ?_, w4⟩
    rw [u2, v2, w3]
    simp only [List.nil_append]
  · simp at h4

theorem Surface.binary_inv {junk : Vec4 F64} {o c : Surface F64} {s s' : IStream} (h : Surface.loadBinary junk o s = (.ok (), c, s')) :
    c.Storable ∧ s = ⟨surfaceBody c ++ s'.rest, false⟩ ∧ s'.eof = false := by
  unfold Surface.loadBinary at h
  obtain ⟨_, o1, s1, h1, h⟩ := Load.bind_inv h
  obtain ⟨d, d1, d2, d3, rfl⟩ := Load.intMember_inv h1
  obtain ⟨_, o2, s2, h2, h⟩ := Load.bind_inv h
  obtain ⟨e, e1, e2, e3, rfl⟩ := Load.intMember_inv h2
  obtain ⟨_, o3, s3, h3, h⟩ := Load.bind_inv h
  obtain ⟨k, h3', rfl⟩ := Load.zoom_inv h3
  obtain ⟨k1, k2, k3⟩ := Load.knots_inv h3'
  obtain ⟨_, o4, s4, h4, h⟩ := Load.bind_inv h
  obtain ⟨l, h4', rfl⟩ := Load.zoom_inv h4
  obtain ⟨l1, l2, l3⟩ := Load.knots_inv h4'
  obtain ⟨g, h5, rfl⟩ := Load.zoom_inv h
  obtain ⟨g1, g2, g3, g4, g5, g6⟩ := Surface.grid_inv h5
  refine ⟨⟨d1, e1, k1, l1, g1, g2, g3, g4⟩, ?_, g6⟩
  rw [d2, e2, k2, l2, g5]
  unfold surfaceBody
  simp only [List.append_assoc]

end Nurbs

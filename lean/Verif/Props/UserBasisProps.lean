import Verif.Lemmas.UserBasis
/-
C134: bases registered by users.
-/
namespace KMC
namespace UserBasis
open Spec

/-- C134.  A name stands for the class registered last under it. -/
theorem C134_latest_registration (reg : Registry) (regs : List (String × Cls)) (name : String)
    (kwargs : List (String × Int)) :
    getBasis (registerAll reg regs) name kwargs =
      (latest regs name).elim (getBasis reg name kwargs) fun c => c.construct kwargs := by
  unfold getBasis
  rw [dictGet_registerAll]
  cases latest regs name with
  | none => rfl
  | some c => rfl

/-- C134.  A name not registered is a `ValueError`. -/
theorem C134_unknown_name (regs : List (String × Cls)) (name : String) (kwargs : List (String × Int))
    (h : ∀ e ∈ regs, e.1 ≠ name) : getBasis (registerAll [] regs) name kwargs = .error .valueError := by
  have h1 : latest regs name = none := by
    rw [latest, Option.map_eq_none_iff, List.find?_eq_none]
    intro e he
    simpa using h e (List.mem_reverse.1 he)
  rw [C134_latest_registration, h1]
  rfl

/-- C134.  With a name, an occupation is made exactly when a class is registered under it, its constructor succeeds
and, if asked to check, all values without their fractional part (for a basis with an integer match value) are valid.
The occupation holds those values under that name. -/
theorem C134_made_iff (reg : Registry) (data : List ℚ) (name : String) (check : Bool) (o : Occ) :
    ofName reg data name check = .ok o ↔
      ∃ c b, dictGet reg name = some c ∧ c.construct [] = .ok b ∧ o = ⟨b, name, data.map b.stored⟩ ∧
        (check = true → ∀ v ∈ data, b.stored v ∈ b.body.valid) := by
  unfold ofName getBasis
  cases hr : dictGet reg name with
  | none => simp
  | some c =>
    simp only [Option.some.injEq]
    cases hb : c.construct [] with
    | error e => simp [hb]
    | ok b =>
      simp only [make]
      cases check with
      | false =>
        simp only [Bool.false_and, Bool.false_eq_true, if_false, Except.ok.injEq, false_implies, and_true]
        constructor
        · rintro rfl; exact ⟨c, b, rfl, hb, rfl⟩
        · rintro ⟨c', b', rfl, h2, h3⟩
          rw [hb] at h2
          rw [h3, Except.ok.inj h2]
      | true =>
        simp only [Bool.true_and, true_implies]
        by_cases hall : (data.map b.stored).all (fun v => decide (v ∈ b.body.valid)) = true
        · rw [hall]
          simp only [Bool.not_true, Bool.false_eq_true, if_false, Except.ok.injEq]
          have hv : ∀ v ∈ data, b.stored v ∈ b.body.valid := by simpa using hall
          constructor
          · rintro rfl; exact ⟨c, b, rfl, hb, rfl, hv⟩
          · rintro ⟨c', b', rfl, h2, h3, -⟩
            rw [hb] at h2
            rw [h3, Except.ok.inj h2]
        · have hv : ¬ ∀ v ∈ data, b.stored v ∈ b.body.valid := by
            intro hv; exact hall (by simpa using hv)
          simp only [Bool.not_eq_true] at hall
          rw [hall]
          simp only [Bool.not_false, if_true, reduceCtorEq, false_iff]
          rintro ⟨c', b', rfl, h2, -, h4⟩
          rw [hb] at h2
          rw [← Except.ok.inj h2] at h4
          exact hv h4

/-- C134.  What an array of integers keeps of a number; an array of floats keeps all of it. -/
theorem C134_kept (b : Obj) (q : ℚ) :
    (b.body.matchValue.isInt = false → b.stored q = q) ∧
      (b.body.matchValue.isInt = true → ∃ z : ℤ, b.stored q = z ∧ IntegerPart q z) := by
  constructor
  · intro h; simp [Obj.stored, h]
  · intro h; exact ⟨towardsZero q, by simp [Obj.stored, h], towardsZero_part q⟩

/-- C134.  An occupation made with a name is equal to its copy exactly when the basis is registered under the name
derived from its class; an occupation made with a basis object always is. -/
theorem C134_copy_equal_iff (reg : Registry) (data : List ℚ) (name : String) (check : Bool) (o : Occ)
    (h : ofName reg data name check = .ok o) :
    ∃ c, dictGet reg name = some c ∧ (o.copy.equalTo o = true ↔ derivedName c.className = name) := by
  obtain ⟨c, b, h1, h2, rfl, -⟩ := (C134_made_iff reg data name check o).1 h
  refine ⟨c, h1, ?_⟩
  have hn : b.name = derivedName c.className := by
    unfold Cls.construct at h2
    split at h2
    · cases h2
    · rw [← Except.ok.inj h2]
  simp only [Occ.equalTo, Occ.copy, fresh, map_stored_stored, hn, beq_self_eq_true, Bool.and_true, beq_iff_eq]

theorem C134_object_copy_equal (data : List ℚ) (b : Obj) (check : Bool) (o : Occ) (h : ofObj data b check = .ok o) :
    o.copy.equalTo o = true := by
  rw [make_data h]
  simp only [Occ.equalTo, Occ.copy, fresh, map_stored_stored, beq_self_eq_true, Bool.and_self]

/-- C134.  `!=` is the opposite of `==`; comparing with an array asks for the data alone. -/
theorem C134_comparisons (o p : Occ) : (o.notEqualTo p = true ↔ ¬ o.equalTo p = true) ∧
    (o.equalTo p = true ↔ o.name = p.name ∧ o.arrayEqual p.values = true) := by
  constructor
  · simp only [Occ.notEqualTo, Bool.not_eq_true', Bool.not_eq_true]
  · simp [Occ.equalTo, Occ.arrayEqual, Occ.values]

/-- C134.  To another basis and back: the mismatch value comes back as itself, every other value as the match value. -/
theorem C134_there_and_back (o : Occ) (b : Obj) (hid : b.id ≠ o.obj.id) (ho : HoldsItsValues o.obj)
    (hb : HoldsItsValues b) (hapart : DistinctValues b) :
    ((o.toBasis b).toBasis o.obj).data =
      o.data.map fun v => if v = o.obj.body.mismatchValue.val then v else o.obj.body.matchValue.val := by
  simp only [Occ.toBasis, if_neg hid, fresh, if_neg (Ne.symm hid), List.map_map]
  refine List.map_congr_left fun v _ => ?_
  by_cases hv : v = o.obj.body.mismatchValue.val
  · have e : b.stored (o.obj.convertTo v b) = b.body.mismatchValue.val := by
      rw [Obj.convertTo, if_pos hv, stored_mismatch hb]
    simp only [Function.comp, e]
    rw [Obj.convertTo, if_pos rfl, stored_mismatch ho, if_pos hv, hv]
  · have e : b.stored (o.obj.convertTo v b) = b.body.matchValue.val := by
      rw [Obj.convertTo, if_neg hv, stored_match hb]
    simp only [Function.comp, e]
    rw [Obj.convertTo, if_neg hapart, stored_match ho, if_neg hv]

/-- C134.  So the way there and back is without loss exactly for data with two values. -/
theorem C134_lossless_iff (o : Occ) (b : Obj) (hid : b.id ≠ o.obj.id) (ho : HoldsItsValues o.obj)
    (hb : HoldsItsValues b) (hapart : DistinctValues b) :
    ((o.toBasis b).toBasis o.obj).data = o.data ↔ TwoValued o.obj o.data := by
  rw [C134_there_and_back o b hid ho hb hapart]
  conv_lhs => rhs; rw [← List.map_id o.data]
  rw [List.map_inj_left]
  constructor
  · intro h v hv
    have := h v hv
    by_cases hm : v = o.obj.body.mismatchValue.val
    · exact Or.inr hm
    · rw [if_neg hm] at this
      exact Or.inl this.symm
  · intro h v hv
    by_cases hm : v = o.obj.body.mismatchValue.val
    · rw [if_pos hm]; rfl
    · rw [if_neg hm]
      rcases h v hv with h | h
      · exact h.symm
      · exact absurd h hm

/-- C134.  Flipping one site of a basis without its own `flip` exchanges match and mismatch there and changes nothing
else; flipping it again restores the occupation. -/
theorem C134_flip (o : Occ) (ho : HoldsItsValues o.obj) (hapart : DistinctValues o.obj) (hf : o.obj.body.ownFlip = none)
    (hd : TwoValued o.obj o.data) (i : Int) (p : Occ) (h : o.flip [i] = .ok p) :
    p.data.length = o.data.length ∧ TwoValued o.obj p.data ∧
      (∃ k, pyIdx o.data.length i = some k ∧ p.data[k]? ≠ o.data[k]? ∧ ∀ j, j ≠ k → p.data[j]? = o.data[j]?) ∧
      ∃ q, p.flip [i] = .ok q ∧ q.data = o.data := by
  unfold Occ.flip at h
  cases hl : flipLoop o.obj [i] o.data with
  | error e => rw [hl] at h; cases h
  | ok d =>
    rw [hl] at h
    obtain rfl := Except.ok.inj h
    obtain ⟨k, v, hk, hv, rfl⟩ := flipLoop_one hl
    have hkl : k < o.data.length := (List.getElem?_eq_some_iff.1 hv).1
    have hvm := hd v (List.mem_of_getElem? hv)
    have key : ∃ w, o.obj.stored (o.obj.flip v) = w ∧ w ≠ v ∧ o.obj.stored (o.obj.flip w) = v ∧
        (w = o.obj.body.matchValue.val ∨ w = o.obj.body.mismatchValue.val) := by
      rcases hvm with rfl | rfl
      · refine ⟨o.obj.body.mismatchValue.val, ?_, Ne.symm hapart, ?_, Or.inr rfl⟩
        · simp only [Obj.flip, hf, if_true, stored_mismatch ho]
        · simp only [Obj.flip, hf, if_neg (Ne.symm hapart), stored_match ho]
      · refine ⟨o.obj.body.matchValue.val, ?_, hapart, ?_, Or.inl rfl⟩
        · simp only [Obj.flip, hf, if_neg (Ne.symm hapart), stored_match ho]
        · simp only [Obj.flip, hf, if_true, stored_mismatch ho]
    obtain ⟨w, e1, e2, e3, e4⟩ := key
    rw [e1]
    have hd' := twoValued_set hd k e4
    have hs := map_stored_of_twoValued ho hd'
    have hdata : (fresh (o.data.set k w) o.obj).data = o.data.set k w := hs
    rw [hdata]
    refine ⟨List.length_set, hd', ⟨k, hk, ?_, ?_⟩, ?_⟩
    · rw [List.getElem?_set_self hkl, hv]
      simpa using e2
    · intro j hj
      rw [List.getElem?_set_ne (Ne.symm hj)]
    · unfold Occ.flip
      rw [hdata]
      have hidx : pyIdx (o.data.set k w).length i = some k := by rw [List.length_set]; exact hk
      have hg : pyGet (o.data.set k w) i = .ok w :=
        pyGet_ok_iff.2 ⟨k, hidx, List.getElem?_set_self hkl⟩
      have hobj : (fresh (o.data.set k w) o.obj).obj = o.obj := rfl
      rw [hobj]
      simp only [flipLoop, hg, pySet_of_idx hidx, e3, List.set_set]
      refine ⟨_, rfl, ?_⟩
      have : o.data.set k v = o.data := by
        apply List.ext_getElem?
        intro j
        by_cases hj : j = k
        · subst hj; rw [List.getElem?_set_self hkl, hv]
        · rw [List.getElem?_set_ne (Ne.symm hj)]
      rw [this]
      exact map_stored_of_twoValued ho hd

/-- C134.  In data with two values every site is counted once, as match or as mismatch. -/
theorem C134_counts (o : Occ) (hapart : DistinctValues o.obj) (hd : TwoValued o.obj o.data) :
    o.countMatch + o.countMismatch = o.data.length := by
  unfold Occ.countMatch Occ.countMismatch
  generalize o.data = l at hd
  induction l with
  | nil => rfl
  | cons a l ih =>
    have := ih fun v hv => hd v (List.mem_cons_of_mem _ hv)
    simp only [List.count_cons, List.length_cons]
    rcases hd a List.mem_cons_self with h | h <;> subst h
    · have : (o.obj.body.matchValue.val == o.obj.body.mismatchValue.val) = false := beq_eq_false_iff_ne.2 hapart
      simp only [this, beq_self_eq_true, if_true, Bool.false_eq_true, if_false]; omega
    · have : (o.obj.body.mismatchValue.val == o.obj.body.matchValue.val) = false := beq_eq_false_iff_ne.2 (Ne.symm hapart)
      simp only [this, beq_self_eq_true, if_true, Bool.false_eq_true, if_false]; omega

/-- C134.  Setting a site: the value without its fraction is stored first and checked afterwards, so that a refused
value stays in the occupation. -/
theorem C134_set (o : Occ) (i : Int) (v : ℚ) (k : Nat) (hk : pyIdx o.data.length i = some k) :
    (o.setItem i v).2.data = o.data.set k (o.obj.stored v) ∧
      ((o.setItem i v).1 = .ok () ↔ ∀ x ∈ o.data.set k (o.obj.stored v), x ∈ o.obj.body.valid) ∧
      ((o.setItem i v).1 = .ok () ∨ (o.setItem i v).1 = .error .valueError) := by
  simp only [Occ.setItem, pySet_of_idx hk, true_and]
  by_cases h : (o.data.set k (o.obj.stored v)).all (fun v => decide (v ∈ o.obj.body.valid)) = true
  · rw [if_pos h]
    simpa using h
  · rw [if_neg h]
    simp only [reduceCtorEq, false_iff, or_true, and_true]
    intro h'
    exact h (by simpa using h')

/-- C134.  Two occupations, in whatever bases, are equivalent exactly when they have the mismatch value on the same
sites.  (Those in the built-in occupation basis are not converted, and have to hold zeros and ones only.) -/
theorem C134_equivalent (reg : Registry) (hreg : dictGet reg "occupation" = some occupationCls) (o p : Occ)
    (ho : o.obj.id = occupationCls.id → o.obj.body.mismatchValue.val = 0 ∧ ∀ v ∈ o.data, v = 0 ∨ v = 1)
    (hp : p.obj.id = occupationCls.id → p.obj.body.mismatchValue.val = 0 ∧ ∀ v ∈ p.data, v = 0 ∨ v = 1) :
    ∃ b, o.equivalentTo reg p = .ok b ∧ (b = true ↔
      o.data.map (fun v => decide (v = o.obj.body.mismatchValue.val)) =
        p.data.map (fun v => decide (v = p.obj.body.mismatchValue.val))) := by
  let c : Bool → ℚ := fun b => if b then 0 else 1
  have hinj : Function.Injective c := by
    intro a b
    cases a <;> cases b <;> simp [c]
  have key : ∀ q : Occ, (q.obj.id = occupationCls.id → q.obj.body.mismatchValue.val = 0 ∧
      ∀ v ∈ q.data, v = 0 ∨ v = 1) → ∃ a, q.toBasisNamed reg "occupation" = .ok a ∧
        a.data = (q.data.map (fun v => decide (v = q.obj.body.mismatchValue.val))).map c := by
    intro q hq
    have h0 : towardsZero 0 = 0 := by simp [towardsZero]
    have h1 : towardsZero 1 = 1 := by simp [towardsZero]
    refine ⟨_, by
      simp only [Occ.toBasisNamed, getBasis, hreg, Cls.construct, occupationCls, List.isEmpty_nil, if_true]
      rfl, ?_⟩
    simp only [Occ.toBasis]
    split_ifs with hid
    · obtain ⟨k1, k2⟩ := hq hid.symm
      simp only [fresh, List.map_map]
      refine List.map_congr_left fun v hv => ?_
      rcases k2 v hv with rfl | rfl <;> simp [Obj.stored, h0, h1, k1, c]
    · simp only [fresh, List.map_map]
      refine List.map_congr_left fun v hv => ?_
      by_cases hm : v = q.obj.body.mismatchValue.val <;> simp [Obj.stored, Obj.convertTo, hm, h0, h1, c]
  obtain ⟨a1, e1, d1⟩ := key o ho
  obtain ⟨a2, e2, d2⟩ := key p hp
  refine ⟨a1.data == a2.data, by simp only [Occ.equivalentTo, e1, e2], ?_⟩
  rw [beq_iff_eq, d1, d2]
  exact (List.map_injective_iff.2 hinj).eq_iff

/-- C134.  A basis written as a dictionary is read back as itself if its class is the first registered of its name and
its constructor takes back what the basis adds to the dictionary. -/
theorem C134_reread (reg : Registry) (c : Cls) (kwargs : List (String × Int)) (b : Obj)
    (hb : c.construct kwargs = .ok b) (hfirst : ∃ n, reg.find? (fun e => e.2.className == c.className) = some (n, c))
    (hback : c.init b.body.attrs = .ok b.body) : fromDict reg b.asDict = .ok b := by
  have hf : b = ⟨c.id, c.className, derivedName c.className, b.body⟩ := by
    unfold Cls.construct at hb
    split at hb
    · cases hb
    · rw [← Except.ok.inj hb]
  obtain ⟨n, hn⟩ := hfirst
  have hc : b.className = c.className := by rw [hf]
  have : reg.find? (fun e => some e.2.className == b.asDict.cls) = some (n, c) := by
    rw [← hn]
    congr 1
    funext e
    simp [Obj.asDict, hc]
  unfold fromDict pickClass
  rw [this]
  simp only [Cls.construct, Obj.asDict, hback]
  rw [← hf]

/-- C134.  The built-in bases accept and hold the same data as in `Model/Basis`. -/
theorem C134_builtin_occupation (data : List Int) (check : Bool) :
    (ofName builtins (data.map fun (z : Int) => (z : ℚ)) "occupation" check).map Occ.data =
      (Occupation.mk' data .occupation check).map fun o => o.data.map fun (z : Int) => (z : ℚ) := by
  have hg : getBasis builtins "occupation" [] = .ok ⟨0, "OccupationBasis", derivedName "OccupationBasis",
    ⟨⟨true, 1⟩, ⟨true, 0⟩, [0, 1], some 1, some 0, some fun q => 1 - q, []⟩⟩ := rfl
  unfold ofName
  rw [hg]
  simp only [make]
  rw [map_stored_ints]
  have hv : (data.map fun (z : Int) => (z : ℚ)).all (fun v => decide (v ∈ ([0, 1] : List ℚ))) =
      data.all (Basis.validValue .occupation) := by
    rw [List.all_map]
    congr 1
    funext z
    simp only [Function.comp, Basis.validValue, List.mem_cons, List.not_mem_nil, or_false, Bool.decide_or]
    congr 1
    · rw [show (z == 0) = decide (z = 0) from rfl]; exact decide_eq_decide.2 (by norm_cast)
    · rw [show (z == 1) = decide (z = 1) from rfl]; exact decide_eq_decide.2 (by norm_cast)
  rw [hv]
  cases check with
  | false => rfl
  | true =>
    simp only [Bool.true_and, Occupation.mk', Occupation.validate, if_true]
    cases data.all (Basis.validValue .occupation) <;> rfl

/-- C134.  Without `max_states` the Chebyshev basis has two states; with fewer than two it is refused. -/
theorem C134_chebyshev_states : (∃ b, getBasis builtins "chebyshev" [] = .ok b ∧
      getBasis builtins "chebyshev" [("max_states", 2)] = .ok b ∧ b.body.valid = [0, 1] ∧
      b.body.matchValue = ⟨true, 0⟩ ∧ b.body.mismatchValue = ⟨true, 1⟩) ∧
    ∀ m : Int, m < 2 → getBasis builtins "chebyshev" [("max_states", m)] = .error .valueError := by
  refine ⟨⟨_, rfl, rfl, by decide +kernel, rfl, rfl⟩, fun m hm => ?_⟩
  have hg : getBasis builtins "chebyshev" [("max_states", m)] = chebyshevCls.construct [("max_states", m)] := rfl
  rw [hg]
  simp only [Cls.construct, chebyshevCls, chebyshevBody, if_pos hm]

/-- C134.  A file that names neither a registered class nor a registered basis is refused. -/
theorem C134_unreadable (reg : Registry) (p : Payload) (hc : ∀ e ∈ reg, some e.2.className ≠ p.cls)
    (hn : ∀ n, p.name = some n → dictGet reg n = none) : fromDict reg p = .error .valueError := by
  have h1 : reg.find? (fun e => some e.2.className == p.cls) = none := by
    rw [List.find?_eq_none]
    intro e he
    simpa using hc e he
  unfold fromDict pickClass
  rw [h1]
  cases h : p.name with
  | none => rfl
  | some n => simp only [hn n h]

/-- C134.  The two built-in bases count and fill alike, each with its own numbers: all sites vacant are zeros in
the occupation basis and ones in the Chebyshev basis, all sites occupied the other way round; both turn into each
other. -/
theorem C134_builtin_fill (n : Nat) : ∃ z z' w w',
    zeros builtins n "occupation" = .ok z ∧ z.data = List.replicate n 0 ∧
    zeros builtins n "chebyshev" = .ok z' ∧ z'.data = List.replicate n 1 ∧
    ones builtins n "occupation" = .ok w ∧ w.data = List.replicate n 1 ∧
    ones builtins n "chebyshev" = .ok w' ∧ w'.data = List.replicate n 0 ∧
    z.countVacant = .ok n ∧ z'.countVacant = .ok n ∧ w.countOccupied = .ok n ∧ w'.countOccupied = .ok n ∧
    (z.toBasisNamed builtins "chebyshev").map Occ.data = .ok z'.data ∧
    (w.toBasisNamed builtins "chebyshev").map Occ.data = .ok w'.data ∧
    (z'.toBasisNamed builtins "occupation").map Occ.data = .ok z.data ∧
    (w'.toBasisNamed builtins "occupation").map Occ.data = .ok w.data := by
  have h0 : towardsZero 0 = 0 := by decide +kernel
  have h1 : towardsZero 1 = 1 := by decide +kernel
  have hg : getBasis builtins "occupation" [] = .ok ⟨0, "OccupationBasis", derivedName "OccupationBasis",
    ⟨⟨true, 1⟩, ⟨true, 0⟩, [0, 1], some 1, some 0, some fun q => 1 - q, []⟩⟩ := rfl
  have hc : getBasis builtins "chebyshev" [] = .ok ⟨1, "ChebyshevBasis", derivedName "ChebyshevBasis",
    ⟨⟨true, 0⟩, ⟨true, 1⟩, (List.range 2).map (fun (k : Nat) => (k : ℚ)), some 0, some 1, none,
      [("max_states", 2)]⟩⟩ := rfl
  refine ⟨_, _, _, _, rfl, ?_, rfl, ?_, rfl, ?_, rfl, ?_, ?_, ?_, ?_, ?_, ?_, ?_, ?_, ?_⟩ <;>
    simp [fresh, Obj.stored, h0, h1, Occ.countVacant, Occ.countOccupied, Occ.toBasisNamed, hg, hc, Occ.toBasis,
      Obj.convertTo, Except.map, chebyshevCls, chebyshevBody, occupationCls]

theorem C134_builtin_chebyshev (data : List Int) (m : Int) (b : Obj)
    (hb : getBasis builtins "chebyshev" [("max_states", m)] = .ok b) (check : Bool) :
    2 ≤ m ∧ (ofObj (data.map fun (z : Int) => (z : ℚ)) b check).map Occ.data =
      (Occupation.mk' data (.chebyshev m) check).map fun o => o.data.map fun (z : Int) => (z : ℚ) := by
  have hg : getBasis builtins "chebyshev" [("max_states", m)] = chebyshevCls.construct [("max_states", m)] := rfl
  rw [hg] at hb
  simp only [Cls.construct, chebyshevCls, chebyshevBody] at hb
  by_cases hm : m < 2
  · rw [if_pos hm] at hb; cases hb
  rw [if_neg hm] at hb
  obtain rfl := Except.ok.inj hb
  refine ⟨by omega, ?_⟩
  unfold ofObj make
  rw [map_stored_ints]
  have hv : (data.map fun (z : Int) => (z : ℚ)).all
      (fun v => decide (v ∈ (List.range m.toNat).map (fun (k : Nat) => (k : ℚ)))) =
      data.all (Basis.validValue (.chebyshev m)) := by
    rw [List.all_map]
    congr 1
    funext z
    simp only [Function.comp, Basis.validValue]
    apply decide_eq_decide.2
    simp only [List.mem_map, List.mem_range]
    constructor
    · rintro ⟨k, h1, h2⟩
      have : (k : Int) = z := by exact_mod_cast h2
      omega
    · rintro ⟨h1, h2⟩
      refine ⟨z.toNat, by omega, ?_⟩
      have : ((z.toNat : Int) : ℚ) = (z : ℚ) := by rw [Int.toNat_of_nonneg h1]
      exact_mod_cast this
  rw [hv]
  cases check with
  | false => rfl
  | true =>
    simp only [Bool.true_and, Occupation.mk', Occupation.validate, if_true]
    cases data.all (Basis.validValue (.chebyshev m)) <;> rfl

/-- C134, negative result.  Every list of numbers strictly between -1 and 2 is accepted as an occupation in the built-in
occupation basis, and holds zeros and ones only. -/
theorem C134_fractions_accepted (data : List ℚ) (h : ∀ q ∈ data, -1 < q ∧ q < 2) :
    ∃ o, ofName builtins data "occupation" true = .ok o ∧ o.data = data.map fun q => if q < 1 then 0 else 1 := by
  have hg : getBasis builtins "occupation" [] = .ok ⟨0, "OccupationBasis", derivedName "OccupationBasis",
    ⟨⟨true, 1⟩, ⟨true, 0⟩, [0, 1], some 1, some 0, some fun q => 1 - q, []⟩⟩ := rfl
  have hs : ∀ q ∈ data, Obj.stored ⟨0, "OccupationBasis", derivedName "OccupationBasis",
      ⟨⟨true, 1⟩, ⟨true, 0⟩, [0, 1], some 1, some 0, some fun q => 1 - q, []⟩⟩ q = if q < 1 then 0 else 1 := by
    intro q hq
    obtain ⟨h1, h2⟩ := h q hq
    simp only [Obj.stored, if_true, towardsZero]
    by_cases h0 : 0 ≤ q
    · rw [if_pos h0]
      by_cases hq1 : q < 1
      · rw [if_pos hq1, Int.floor_eq_iff (z := 0).2 ⟨by rw [Int.cast_zero]; exact h0, by rw [Int.cast_zero, zero_add]; exact hq1⟩]; rfl
      · rw [if_neg hq1, Int.floor_eq_iff (z := 1).2 ⟨by simpa using hq1, by norm_num; linarith⟩]; rfl
    · rw [if_neg h0, if_pos (by linarith), Int.ceil_eq_iff (z := 0).2 ⟨by simpa using h1, by simpa using le_of_not_ge h0⟩]
      rfl
  refine ⟨_, (C134_made_iff builtins data "occupation" true _).2 ⟨occupationCls, _, rfl, rfl, rfl, fun _ => ?_⟩, ?_⟩
  · intro v hv
    have := hs v hv
    rw [show ∀ b : Obj, b = ⟨0, "OccupationBasis", derivedName "OccupationBasis",
      ⟨⟨true, 1⟩, ⟨true, 0⟩, [0, 1], some 1, some 0, some fun q => 1 - q, []⟩⟩ → b.stored v = if v < 1 then 0 else 1 from
      fun b hb => hb ▸ this]
    · split <;> simp
    · rfl
  · exact List.map_congr_left hs

/-- C134, negative result.  In a basis with an integer match value and a mismatch value that is not an integer, no
occupation with a mismatch can be made unless the cut off value happens to be valid, although the value is valid. -/
theorem C134_mixed_types (reg : Registry) (name : String) (c : Cls) (b : Obj) (hc : dictGet reg name = some c)
    (hb : c.construct [] = .ok b) (hcut : b.stored b.body.mismatchValue.val ∉ b.body.valid) (data : List ℚ)
    (hm : b.body.mismatchValue.val ∈ data) : ofName reg data name true = .error .valueError := by
  unfold ofName getBasis
  rw [hc]
  simp only [hb, make]
  rw [if_pos]
  rw [Bool.true_and, Bool.not_eq_true']
  apply Bool.eq_false_iff.2
  intro h
  have h' : ∀ v ∈ data, b.stored v ∈ b.body.valid := by simpa using h
  exact hcut (h' _ hm)

/-- C134, negative result.  A basis that offers no more than the abstract interface asks for has no occupied and no
vacant value, and `zeros`, `ones` and the counts of occupied and vacant sites raise `AttributeError`. -/
theorem C134_interface_too_small (reg : Registry) (name : String) (c : Cls) (b : Obj) (hc : dictGet reg name = some c)
    (hb : c.construct [] = .ok b) (ho : b.body.occupied = none) (hv : b.body.vacant = none) (n : Nat) :
    zeros reg n name = .error .attributeError ∧ ones reg n name = .error .attributeError ∧
      ∀ data check o, ofName reg data name check = .ok o →
        o.countOccupied = .error .attributeError ∧ o.countVacant = .error .attributeError := by
  refine ⟨by simp only [zeros, getBasis, hc, hb, hv], by simp only [ones, getBasis, hc, hb, ho], ?_⟩
  intro data check o h
  obtain ⟨c', b', h1, h2, rfl, -⟩ := (C134_made_iff reg data name check o).1 h
  rw [hc] at h1
  obtain rfl := Option.some.inj h1
  rw [hb] at h2
  obtain rfl := Except.ok.inj h2
  simp only [Occ.countOccupied, ho, Occ.countVacant, hv, and_self]

/-- A class for spins with the values 1 and -1. -/
def spinCls (id : Nat) (up : ℚ) : Cls :=
  ⟨id, "SpinBasis", fun _ => .ok ⟨⟨true, up⟩, ⟨true, -up⟩, [up, -up], none, none, none, []⟩⟩

/-- Its instance. -/
def spinObj : Obj := ⟨2, "SpinBasis", "spin", ⟨⟨true, 1⟩, ⟨true, -1⟩, [1, -1], none, none, none, []⟩⟩

theorem spin_made : (spinCls 2 1).construct [] = .ok spinObj := by
  have : derivedName "SpinBasis" = "spin" := by decide +kernel
  simp only [Cls.construct, spinCls, this, spinObj]

theorem spin_stored (d : List Int) : (d.map fun (z : Int) => (z : ℚ)).map spinObj.stored = d.map fun (z : Int) => (z : ℚ) :=
  map_stored_ints _ d

/-- C134, negative result.  A basis registered under another name than that of its class: an occupation is not equal to
its own copy. -/
theorem C134_alias_copy_differs : ∃ reg o, ofName reg [1, -1] "ising" true = .ok o ∧ o.copy.equalTo o = false ∧
    o.copy.data = o.data := by
  have h2 : [1, -1].map spinObj.stored = [1, -1] := by simpa using spin_stored [1, -1]
  refine ⟨register builtins "ising" (spinCls 2 1), ⟨spinObj, "ising", [1, -1]⟩,
    (C134_made_iff _ _ _ _ _).2 ⟨_, _, rfl, spin_made, by rw [h2], fun _ v hv => ?_⟩, ?_, h2⟩
  · have : spinObj.stored v ∈ [1, -1].map spinObj.stored := List.mem_map_of_mem hv
    rwa [h2] at this
  · have : ("spin" == "ising") = false := by decide
    simp only [Occ.equalTo, Occ.copy, fresh, spinObj, this, Bool.false_and]

/-- C134, negative result.  Of two registered classes with the same class name, both are read back as the one registered
first. -/
theorem C134_same_class_name : ∃ reg b, getBasis reg "two" [] = .ok b ∧ b.body.matchValue.val = 2 ∧
    ∃ b', fromDict reg b.asDict = .ok b' ∧ b'.body.matchValue.val = 1 :=
  ⟨register (register builtins "one" (spinCls 2 1)) "two" (spinCls 3 2), _, rfl, rfl, _, rfl, rfl⟩

/-- The hypotheses of the theorems above are met by a registered spin basis. -/
example : ∃ o b, ofName (register builtins "spin" (spinCls 2 1)) [1, -1, 1] "spin" true = .ok o ∧
    getBasis builtins "occupation" [] = .ok b ∧ b.id ≠ o.obj.id ∧ HoldsItsValues o.obj ∧ HoldsItsValues b ∧
    DistinctValues o.obj ∧ DistinctValues b ∧ TwoValued o.obj o.data ∧ o.obj.body.ownFlip = none ∧
    derivedName "SpinBasis" = "spin" ∧ (∃ p, o.flip [-1] = .ok p) ∧ pyIdx o.data.length (-1) = some 2 := by
  have h2 : [1, -1, 1].map spinObj.stored = [1, -1, 1] := by simpa using spin_stored [1, -1, 1]
  refine ⟨⟨spinObj, "spin", [1, -1, 1]⟩, _, (C134_made_iff _ _ _ _ _).2 ⟨_, _, rfl, spin_made, by rw [h2],
    fun _ v hv => ?_⟩, rfl, by decide, ?_, ?_, ?_, ?_, ?_, rfl, by decide +kernel, ⟨_, rfl⟩, rfl⟩
  · have : spinObj.stored v ∈ [1, -1, 1].map spinObj.stored := List.mem_map_of_mem hv
    rw [h2] at this
    generalize spinObj.stored v = w at this ⊢
    simp only [List.mem_cons, List.not_mem_nil, or_false] at this
    rcases this with rfl | rfl | rfl <;> simp [spinObj]
  · exact fun _ => ⟨⟨1, by simp [spinObj]⟩, ⟨-1, by simp [spinObj]⟩⟩
  · exact fun _ => ⟨⟨1, by simp⟩, ⟨0, by simp⟩⟩
  · simp only [DistinctValues, spinObj]; norm_num
  · simp only [DistinctValues]; norm_num
  · intro v hv
    fin_cases hv <;> simp [spinObj]

/-- A registered spin basis beside the built-in one: minus one is where the other has zero. -/
example : ∃ o p, ofName (register builtins "spin" (spinCls 2 1)) [1, -1, 1] "spin" false = .ok o ∧
    ofName (register builtins "spin" (spinCls 2 1)) [1, 0, 1] "occupation" false = .ok p ∧
    dictGet (register builtins "spin" (spinCls 2 1)) "occupation" = some occupationCls ∧
    o.obj.id ≠ occupationCls.id ∧ p.obj.id = occupationCls.id ∧ p.obj.body.mismatchValue.val = 0 ∧
    (∀ v ∈ p.data, v = 0 ∨ v = 1) ∧
    o.data.map (fun v => decide (v = o.obj.body.mismatchValue.val)) =
        p.data.map (fun v => decide (v = p.obj.body.mismatchValue.val)) := by
  refine ⟨_, _, rfl, rfl, rfl, by decide, rfl, rfl, ?_, ?_⟩
  · intro v hv
    fin_cases hv <;> simp [Obj.stored, towardsZero]
  · have h1 : ⌈(-1 : ℚ)⌉ = -1 := by simpa using Int.ceil_intCast (R := ℚ) (-1)
    simp [Obj.stored, towardsZero, spinCls, h1]
    norm_num

/-- Nor are the negative results empty: a class with an integer match value and the mismatch value -1/2. -/
example : ∃ c b, (register builtins "half" c).length = 3 ∧ dictGet (register builtins "half" c) "half" = some c ∧
    c.construct [] = .ok b ∧ b.body.mismatchValue.val ∈ b.body.valid ∧
    b.stored b.body.mismatchValue.val ∉ b.body.valid ∧ b.body.occupied = none ∧ b.body.vacant = none := by
  refine ⟨⟨2, "HalfBasis", fun _ => .ok ⟨⟨true, 1⟩, ⟨false, -1 / 2⟩, [1, -1 / 2], none, none, none, []⟩⟩, _, rfl, rfl,
    rfl, by simp, ?_, rfl, rfl⟩
  simp only [Obj.stored, if_true, towardsZero]
  rw [if_neg (by norm_num), Int.ceil_eq_iff (z := 0).2 ⟨by norm_num, by norm_num⟩]
  norm_num

/-- A Chebyshev basis with three states is read back as itself. -/
example : ∃ b, chebyshevCls.construct [("max_states", 3)] = .ok b ∧
    (∃ n, builtins.find? (fun e => e.2.className == chebyshevCls.className) = some (n, chebyshevCls)) ∧
    chebyshevCls.init b.body.attrs = .ok b.body := ⟨_, rfl, ⟨"chebyshev", rfl⟩, rfl⟩

end UserBasis
end KMC

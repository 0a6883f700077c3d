import Verif.ExtData.SetterProps

/-! Property C78: the adders of the extensions that hold values, and the extensions after any sequence of calls. -/

namespace Verif.ExtData

open Verif Verif.XmlNet

/-! ### Calls on an extension -/

theorem settable_feederName {n : Name} {s : Slot} (h : .feederName s ∈ settable n) : n = .position := by
  cases n <;> simp [settable] at h ⊢

/-- `y` is `x` with the value of the call. -/
def Written (E : Env) (x y : Data) (op : Op) (k : Key) : Prop := y.name = x.name ∧ y.size = x.size ∧
  ∀ i k', y.get i k' = if k' = k ∧ (perVariant x.name = true → i = E.index) then op.val else x.get i k'

/-- Whatever the call, it does not exist, or is refused, or writes its value. -/
theorem put_cases {E : Env} {x : Data} (op : Op) (hb : x.InBounds E) : x.put E op = none ∨ x.put E op = some .thrown ∨
    ∃ k y, op.key = some k ∧ (x.name = .position → (x.get E.index k).isSome) ∧ ((∀ s, k ≠ .feederName s) → ∀ v, op.val = some v → Fit E x.name k v) ∧
      x.put E op = some (.ok y) ∧ Written E x y op k := by
  by_cases h0 : x.put E op = none
  · exact .inl h0
  obtain ⟨k, hk, hs⟩ := setter_exists_iff.1 h0
  by_cases hp : x.name = .position ∧ x.get E.index k = none
  · exact .inr (.inl (setter_without_feeder hk hs hp.1 hp.2))
  have hp' : x.name = .position → (x.get E.index k).isSome := by
    intro h
    cases hg : x.get E.index k with
    | none => exact absurd ⟨h, hg⟩ hp
    | some _ => rfl
  by_cases hf : (∀ s, k ≠ .feederName s) → ∀ v, op.val = some v → Fit E x.name k v
  · obtain ⟨y, hy, h⟩ := setter_writes hk hs hb hf hp'
    exact .inr (.inr ⟨k, y, hk, hp', hf, hy, h⟩)
  · have hf1 : (∀ s, k ≠ .feederName s) ∧ ∃ v, op.val = some v ∧ ¬ Fit E x.name k v := by
      refine ⟨fun s e => hf fun h => absurd e (h s), ?_⟩
      refine Classical.byContradiction fun h => hf fun _ v hv => Classical.byContradiction fun hn => h ⟨v, hv, hn⟩
    obtain ⟨hn, v, hv, hnf⟩ := hf1
    exact .inr (.inl (setter_refuses_partial hk hs hb hv hnf hn))

theorem step_cases {E : Env} {x : Data} (op : Op) (hb : x.InBounds E) : x.step E op = .ok x ∨
    ∃ k y, op.key = some k ∧ (x.name = .position → (x.get E.index k).isSome) ∧ ((∀ s, k ≠ .feederName s) → ∀ v, op.val = some v → Fit E x.name k v) ∧
      x.step E op = .ok y ∧ Written E x y op k := by
  unfold Data.step
  rcases put_cases op hb with h | h | ⟨k, y, h1, h2, h3, h4, h5⟩
  · rw [h]; exact .inl rfl
  · rw [h]; exact .inl rfl
  · rw [h4]; exact .inr ⟨k, y, h1, h2, h3, rfl, h5⟩

/-- No call is undefined when there is a value for the working variant, and there still is one afterwards. -/
theorem calls_defined {E : Env} : ∀ (ops : List Op) {x : Data}, x.InBounds E → ∃ y, x.run E ops = .ok y ∧ y.name = x.name ∧ y.size = x.size := by
  intro ops
  induction ops with
  | nil => intro x _; exact ⟨x, rfl, rfl, rfl⟩
  | cons op ops ih =>
    intro x hb
    rcases step_cases op hb with h | ⟨k, y, -, -, -, h, hn, hs, -⟩
    · obtain ⟨z, hz, h1, h2⟩ := ih hb
      exact ⟨z, by rw [Data.run, h]; exact hz, h1, h2⟩
    · obtain ⟨z, hz, h1, h2⟩ := ih (x := y) (fun s e => hb s (hs ▸ e))
      exact ⟨z, by rw [Data.run, h]; exact hz, h1.trans hn, h2.trans hs⟩

theorem written_sound {E : Env} {x y : Data} {op : Op} {k : Key} (h : x.Sound E) (hk : op.key = some k) (hp : x.name = .position → (x.get E.index k).isSome)
    (hf : ∀ v, op.val = some v → Fit E x.name k v) (hw : Written E x y op k) : y.Sound E := by
  obtain ⟨hn, -, hg⟩ := hw
  constructor
  · intro i k' v hv
    rw [hg] at hv
    rw [hn]
    split at hv
    · rename_i hc; rw [hc.1]; exact hf v hv
    · exact h.1 i k' v hv
  · intro hpos
    have hpos : x.name = .position := hn ▸ hpos
    have hshape : ∀ s, (y.get E.index (.feederName s)).isSome = (x.get E.index (.feederName s)).isSome := by
      intro s
      rw [hg]
      split
      · rename_i hc
        rw [hc.1, hp hpos]
        have := hc.1
        subst this
        cases op <;> simp [Op.key] at hk ⊢
        simp [Op.val]
      · rfl
    show (_, _, _, _) ∈ _
    rw [hshape, hshape, hshape, hshape]
    exact h.2 hpos

/-- **C78.**  The values of an extension stay those that it may hold, in every variant, whatever the calls; but a feeder can be given an empty name. -/
theorem extension_values_kept_partial {E : Env} : ∀ (ops : List Op) {x y : Data}, x.Sound E → x.InBounds E → (∀ s, .feederName s "" ∉ ops) → x.run E ops = .ok y →
    y.Sound E := by
  intro ops
  induction ops with
  | nil => intro x y h _ _ hr; rw [← Out.ok.inj hr]; exact h
  | cons op ops ih =>
    intro x y h hb hn hr
    have hn' : ∀ s, Op.feederName s "" ∉ ops := fun s hm => hn s (List.mem_cons_of_mem _ hm)
    rcases step_cases op hb with hs | ⟨k, z, hk, hp, hf, hs, hw⟩
    · rw [Data.run, hs] at hr
      exact ih h hb hn' hr
    · rw [Data.run, hs] at hr
      refine ih (written_sound h hk hp ?_ hw) (fun s e => hb s (hw.2.1 ▸ e)) hn' hr
      intro v hv
      by_cases hfn : ∃ s, k = .feederName s
      · obtain ⟨s, rfl⟩ := hfn
        cases op <;> simp [Op.key] at hk
        rename_i s' m
        simp only [Op.val, Option.some.injEq] at hv
        subst hv hk
        have hm : m ≠ "" := fun e => hn s' (by rw [e]; exact List.mem_cons_self)
        cases hx : x.name <;> simp [Fit]
        exact hm
      · exact hf (fun s e => hfn ⟨s, e⟩) v hv

/-- The name of a feeder can be emptied (ConnectablePosition.cpp l.59-62), though an adder refuses an empty name. -/
theorem empty_feeder_name : ∃ (E : Env) (x y : Data), x.Sound E ∧ x.put E (.feederName .only "") = some (.ok y) ∧ ¬ y.Sound E := by
  refine ⟨⟨.load, "L", 1, 0, fun _ => "V"⟩, .position ⟨some ⟨"f", 1, ⟨0, by decide⟩⟩, none, none, none⟩, .position ⟨some ⟨"", 1, ⟨0, by decide⟩⟩, none, none, none⟩, ⟨?_, ?_⟩, rfl, ?_⟩
  · intro i k v h
    cases k <;> simp [Data.get] at h
    · rename_i s; cases s <;> simp [Position.get] at h; subst h; simp [Fit, Data.name]
    · rename_i s; cases s <;> simp [Position.get] at h; subst h; simp [Fit, Data.name]
    · rename_i s; cases s <;> simp [Position.get] at h; subst h; simp [Fit, Data.name]
  · intro _; decide
  · intro h; exact h.1 0 (.feederName .only) (.s "") rfl rfl

end Verif.ExtData

import Verif.Spec.Grounded
/-
Lemmas on programs in which objects cannot be nested without end.
-/
namespace Verif.Ground
open Spec

variable {α β : Type}

theorem bind_ne {r : Parsed α} (h : r ≠ .deep) {f : α → Parsed β} (hf : ∀ a, r = .ok a → f a ≠ .deep) : (r >>= f) ≠ .deep := by
  cases r with
  | ok a => exact hf a rfl
  | deep => exact absurd rfl h
  | err | odd => nofun

theorem takes_ne (n : Nat) (b : Bytes) (f : Bytes → Val) : takes n b f ≠ .deep := by
  unfold takes
  split <;> nofun

theorem ofE_ne (r : Except Err α) : Parsed.ofE r ≠ .deep := by cases r <;> nofun

theorem readMany_ne {f : Bytes → Parsed (Val × Nat)} {m : Nat} (h : ∀ b : Bytes, b.length ≤ m → f b ≠ .deep) :
    ∀ (n : Nat) (b : Bytes), b.length ≤ m → readMany f n b ≠ .deep
  | 0, _, _ => by unfold readMany; nofun
  | n + 1, b, hb => by
    unfold readMany
    exact bind_ne (h b hb) fun p _ => bind_ne (readMany_ne h n _ (by rw [List.length_drop]; omega)) fun _ _ => nofun

section
variable {P : Platform} {bo : ByteOrder} {cls : ClassId → Bytes → Parsed (Val × Nat)} {A : ClassId → Prop} {m : Nat}

mutual
theorem lead_all (self : ClassId) : ∀ f : Fmt, f.leads (fun _ => True) self
  | .int .. | .bool | .half | .single | .double | .chars _ | .pascal _ | .counted _ | .until _ | .rest | .net | .obj _ | .me | .list .. | .sized .. => by
    simp only [Fmt.leads]
  | .via _ f _ _ _ | .text f _ _ | .fixed _ f => by
    simp only [Fmt.leads]
    exact lead_all self f
  | .tup fs => by
    simp only [Fmt.leads]
    exact allLead_all self fs
  | .choice _ _ _ _ _ opts other => by
    simp only [Fmt.leads]
    exact ⟨allLead_all self opts, allLead_all self other⟩
theorem allLead_all (self : ClassId) : ∀ fs : List Fmt, Fmt.allLead (fun _ => True) self fs
  | [] => trivial
  | f :: fs => ⟨lead_all self f, allLead_all self fs⟩
end

mutual
/-- Reading is not too deep if reading objects of the classes that come first is not, nor reading any objects from fewer bytes. -/
theorem read_ne (o : PObj) : ∀ (f : Fmt) (A : ClassId → Prop) (m : Nat), (∀ c b, A c → b.length ≤ m → cls c b ≠ .deep) →
    (∀ c b, b.length < m → cls c b ≠ .deep) → f.leads A o.cls → ∀ b : Bytes, b.length ≤ m → f.read P bo cls o b ≠ .deep
  | .int .., A, m, h1, h2, hf, b, hb | .bool, A, m, h1, h2, hf, b, hb | .half, A, m, h1, h2, hf, b, hb | .single, A, m, h1, h2, hf, b, hb
  | .double, A, m, h1, h2, hf, b, hb | .chars _, A, m, h1, h2, hf, b, hb | .pascal _, A, m, h1, h2, hf, b, hb => by
    simp only [Fmt.read]; exact takes_ne _ _ _
  | .counted _, A, m, h1, h2, hf, b, hb | .until _, A, m, h1, h2, hf, b, hb => by
    simp only [Fmt.read]; split <;> nofun
  | .rest, A, m, h1, h2, hf, b, hb => by simp only [Fmt.read]; nofun
  | .net, A, m, h1, h2, hf, b, hb => by
    simp only [Fmt.read]
    split
    · nofun
    · split
      · nofun
      · split
        · nofun
        · split <;> nofun
  | .via _ f _ _ _, A, m, h1, h2, hf, b, hb => by
    simp only [Fmt.read]
    exact bind_ne (read_ne o f A m h1 h2 (by simpa only [Fmt.leads] using hf) b hb) fun _ _ => nofun
  | .text f _ de, A, m, h1, h2, hf, b, hb => by
    simp only [Fmt.read]
    refine bind_ne (read_ne o f A m h1 h2 (by simpa only [Fmt.leads] using hf) b hb) fun p _ => ?_
    obtain ⟨v, n⟩ := p
    dsimp only
    split
    · exact bind_ne (ofE_ne _) fun _ _ => nofun
    · nofun
  | .fixed n f, A, m, h1, h2, hf, b, hb => by
    simp only [Fmt.read]
    exact bind_ne (readMany_ne (read_ne o f A m h1 h2 (by simpa only [Fmt.leads] using hf)) n b hb) fun _ _ => nofun
  | .list w f, A, m, h1, h2, hf, b, hb => by
    simp only [Fmt.read]
    split
    · have hw : 0 < w.bytes := by cases w <;> simp [Size.bytes]
      refine bind_ne (readMany_ne (m := m - 1) (read_ne o f (fun _ => True) (m - 1) (fun c b' _ hb' => h2 c b' ?_)
        (fun c b' hb' => h2 c b' (by omega)) (lead_all _ f)) _ _ (by rw [List.length_drop]; omega)) fun _ _ => nofun
      omega
    · nofun
  | .sized w w2 f, A, m, h1, h2, hf, b, hb => by
    simp only [Fmt.read]
    split
    · have hw : 0 < w.bytes := by cases w <;> simp [Size.bytes]
      refine bind_ne (readMany_ne (m := m - 1) (read_ne o f (fun _ => True) (m - 1) (fun c b' _ hb' => h2 c b' ?_)
        (fun c b' hb' => h2 c b' (by omega)) (lead_all _ f)) _ _ (by rw [List.length_drop]; omega)) fun p _ => ?_
      · omega
      · obtain ⟨vs, k⟩ := p
        dsimp only
        split <;> nofun
    · nofun
  | .tup fs, A, m, h1, h2, hf, b, hb => by
    simp only [Fmt.read]
    split
    · exact bind_ne (reads_ne o fs A m h1 h2 (by simpa only [Fmt.leads] using hf) 0 b hb) fun _ _ => nofun
    · nofun
  | .obj c, A, m, h1, h2, hf, b, hb => by
    simp only [Fmt.leads] at hf
    simp only [Fmt.read]; exact h1 c b hf hb
  | .me, A, m, h1, h2, hf, b, hb => by
    simp only [Fmt.leads] at hf
    simp only [Fmt.read]; exact h1 _ b hf hb
  | .choice _ _ ahead decider keys opts other, A, m, h1, h2, hf, b, hb => by
    simp only [Fmt.leads] at hf
    have key : ∀ r : Val, (if ¬ r.hashable then (.err .typeError : Parsed (Val × Nat))
        else match keyAt keys r with
          | some k => Fmt.readAt P bo cls o opts k b
          | Option.none => Fmt.readAt P bo cls o other 0 b) ≠ .deep := by
      intro r
      split
      · nofun
      · split
        · exact readAt_ne o opts A m h1 h2 hf.1 _ b hb
        · exact readAt_ne o other A m h1 h2 hf.2 _ b hb
    simp only [Fmt.read]
    cases ahead with
    | none => exact bind_ne (ofE_ne _) fun r _ => key r
    | some a =>
      dsimp only
      split
      · exact key _
      · nofun
theorem reads_ne (o : PObj) : ∀ (fs : List Fmt) (A : ClassId → Prop) (m : Nat), (∀ c b, A c → b.length ≤ m → cls c b ≠ .deep) →
    (∀ c b, b.length < m → cls c b ≠ .deep) → Fmt.allLead A o.cls fs → ∀ (k : Nat) (b : Bytes), b.length ≤ m → Fmt.reads P bo cls o k fs b ≠ .deep
  | [], A, m, h1, h2, hf, k, b, hb => by simp only [Fmt.reads]; nofun
  | f :: fs, A, m, h1, h2, hf, k, b, hb => by
    simp only [Fmt.allLead] at hf
    simp only [Fmt.reads]
    exact bind_ne (read_ne o f A m h1 h2 hf.1 _ (by rw [List.length_drop]; omega)) fun p _ =>
      bind_ne (reads_ne o fs A m h1 h2 hf.2 _ _ (by rw [List.length_drop]; omega)) fun _ _ => nofun
theorem readAt_ne (o : PObj) : ∀ (fs : List Fmt) (A : ClassId → Prop) (m : Nat), (∀ c b, A c → b.length ≤ m → cls c b ≠ .deep) →
    (∀ c b, b.length < m → cls c b ≠ .deep) → Fmt.allLead A o.cls fs → ∀ (k : Nat) (b : Bytes), b.length ≤ m → Fmt.readAt P bo cls o fs k b ≠ .deep
  | [], A, m, h1, h2, hf, k, b, hb => by simp only [Fmt.readAt]; nofun
  | f :: fs, A, m, h1, h2, hf, 0, b, hb => by
    simp only [Fmt.allLead] at hf
    simp only [Fmt.readAt]
    exact read_ne o f A m h1 h2 hf.1 b hb
  | f :: fs, A, m, h1, h2, hf, k + 1, b, hb => by
    simp only [Fmt.allLead] at hf
    simp only [Fmt.readAt]
    exact readAt_ne o fs A m h1 h2 hf.2 k b hb
end

theorem bind_ok {r : Parsed α} {f : α → Parsed β} {b : β} (h : (r >>= f) = .ok b) : ∃ a, r = .ok a ∧ f a = .ok b := by
  cases r with
  | ok a => exact ⟨a, rfl, h⟩
  | err | deep | odd => cases h

theorem takes_ok {n : Nat} {b : Bytes} {f : Bytes → Val} {v : Val} {k : Nat} (h : takes n b f = .ok (v, k)) : k = n ∧ n ≤ b.length := by
  unfold takes at h
  split at h
  · cases h; exact ⟨rfl, by assumption⟩
  · cases h

/-- What always takes a byte has read one if it has read anything. -/
theorem bites_ok (o : PObj) : ∀ (f : Fmt), f.bites → ∀ (b : Bytes) (v : Val) (k : Nat), f.read P bo cls o b = .ok (v, k) → 0 < k ∧ 0 < b.length
  | .int _ w, hf, b, v, k, h => by
    simp only [Fmt.read] at h
    have hw : 0 < w.bytes := by cases w <;> simp [Size.bytes]
    have := takes_ok h
    omega
  | .bool, hf, b, v, k, h | .half, hf, b, v, k, h | .single, hf, b, v, k, h | .double, hf, b, v, k, h => by
    simp only [Fmt.read] at h
    have := takes_ok h
    omega
  | .chars _, hf, b, v, k, h | .pascal _, hf, b, v, k, h => by
    simp only [Fmt.read] at h
    simp only [Fmt.bites] at hf
    have := takes_ok h
    omega
  | .counted w, hf, b, v, k, h => by
    have hw : 0 < w.bytes := by cases w <;> simp [Size.bytes]
    simp only [Fmt.read] at h
    split at h
    · cases h; omega
    · cases h
  | .until t, hf, b, v, k, h => by
    simp only [Fmt.read] at h
    split at h
    · rename_i hm
      cases h
      exact ⟨by omega, List.length_pos_of_mem hm⟩
    · cases h
  | .net, hf, b, v, k, h => by
    simp only [Fmt.read] at h
    split at h
    · cases h
    · split at h
      · cases h; exact ⟨by omega, by simp⟩
      · split at h
        · cases h
        · split at h
          · cases h; exact ⟨by omega, by simp⟩
          · cases h
  | .via _ f _ _ _, hf, b, v, k, h => by
    simp only [Fmt.read] at h
    obtain ⟨⟨v', n⟩, h1, h2⟩ := bind_ok h
    cases h2
    exact bites_ok o f (by simpa only [Fmt.bites] using hf) b _ _ h1
  | .text f _ de, hf, b, v, k, h => by
    simp only [Fmt.read] at h
    obtain ⟨⟨v', n⟩, h1, h2⟩ := bind_ok h
    have := bites_ok o f (by simpa only [Fmt.bites] using hf) b _ _ h1
    dsimp only at h2
    split at h2
    · obtain ⟨s, _, h3⟩ := bind_ok h2
      cases h3
      exact this
    · cases h2
  | .fixed n f, hf, b, v, k, h => by
    simp only [Fmt.bites] at hf
    simp only [Fmt.read] at h
    obtain ⟨⟨vs, m⟩, h1, h2⟩ := bind_ok h
    cases h2
    obtain ⟨n, rfl⟩ : ∃ j, n = j + 1 := ⟨n - 1, by omega⟩
    simp only [readMany] at h1
    obtain ⟨⟨v', k'⟩, h3, h4⟩ := bind_ok h1
    obtain ⟨⟨vs', m'⟩, h5, h6⟩ := bind_ok h4
    cases h6
    have := bites_ok o f hf.2 b _ _ h3
    omega
  | .list w f, hf, b, v, k, h => by
    have hw : 0 < w.bytes := by cases w <;> simp [Size.bytes]
    simp only [Fmt.read] at h
    split at h
    · obtain ⟨⟨vs, m⟩, h1, h2⟩ := bind_ok h
      cases h2
      omega
    · cases h
  | .sized w w2 f, hf, b, v, k, h => by
    have hw : 0 < w.bytes := by cases w <;> simp [Size.bytes]
    simp only [Fmt.read] at h
    split at h
    · obtain ⟨⟨vs, m⟩, h1, h2⟩ := bind_ok h
      dsimp only at h2
      split at h2
      · cases h2; omega
      · cases h2
    · cases h
  | .rest, hf, _, _, _, _ | .tup _, hf, _, _, _, _ | .obj _, hf, _, _, _, _ | .me, hf, _, _, _, _ | .choice .., hf, _, _, _, _ => by
    simp only [Fmt.bites] at hf

theorem field_lead_all (self : ClassId) (f : Field) : f.leads (fun _ => True) self := by
  cases f <;> simp only [Field.leads] <;> exact lead_all _ _

theorem grounded_all (self : ClassId) : ∀ fs : List Field, Grounded (fun _ => True) self fs
  | [] => trivial
  | f :: fs => ⟨field_lead_all self f, .inr (grounded_all self fs)⟩

theorem readFields_ne : ∀ (fs : List Field) (A : ClassId → Prop) (m : Nat), (∀ c b, A c → b.length ≤ m → cls c b ≠ .deep) →
    (∀ c b, b.length < m → cls c b ≠ .deep) → ∀ (o : PObj), Grounded A o.cls fs → ∀ (k : Nat) (b : Bytes), b.length ≤ m →
      readFields P bo cls o k fs b ≠ .deep
  | [], A, m, h1, h2, o, hf, k, b, hb => by simp only [readFields]; nofun
  | .value a f :: fs, A, m, h1, h2, o, hf, k, b, hb => by
    simp only [readFields]
    refine bind_ne (read_ne o f A m h1 h2 hf.1 _ (by rw [List.length_drop]; omega)) fun p hp => bind_ne ?_ fun _ _ => nofun
    rcases hf.2 with h | h
    · have := bites_ok o f h _ _ _ hp
      rw [List.length_drop] at this
      exact readFields_ne fs (fun _ => True) (m - 1) (fun c b _ hb => h2 c b (by omega)) (fun c b hb => h2 c b (by omega)) _ (grounded_all _ fs) _ _
        (by rw [List.length_drop]; omega)
    · exact readFields_ne fs A m h1 h2 (o.with a p.1) h (after bo k f.basic) (b.drop (gap bo k f.basic + p.2)) (by rw [List.length_drop]; omega)
  | .pad a n :: fs, A, m, h1, h2, o, hf, k, b, hb => by
    simp only [readFields]
    split
    · refine bind_ne ?_ fun _ _ => nofun
      rcases hf.2 with h | h
      · simp only [Field.bites] at h
        exact readFields_ne fs (fun _ => True) (m - 1) (fun c b _ hb => h2 c b (by omega)) (fun c b hb => h2 c b (by omega)) _ (grounded_all _ fs) _ _
          (by rw [List.length_drop]; omega)
      · exact readFields_ne fs A m h1 h2 _ h _ _ (by rw [List.length_drop]; omega)
    · nofun
  | .when a c f d :: fs, A, m, h1, h2, o, hf, k, b, hb => by
    have hg : Grounded A o.cls fs := hf.2.resolve_left (by simp only [Field.bites, not_false_eq_true])
    simp only [readFields]
    refine bind_ne (ofE_ne _) fun r _ => ?_
    split
    · nofun
    · split
      · exact bind_ne (read_ne o f A m h1 h2 hf.1 b hb) fun p hp => bind_ne (readFields_ne fs A m h1 h2 (o.with a p.1) hg 0 (b.drop p.2) (by rw [List.length_drop]; omega)) fun _ _ => nofun
      · exact bind_ne (readFields_ne fs A m h1 h2 (o.with a d) hg 0 b hb) fun _ _ => nofun
      · nofun

end

/-- Objects are not nested deeper than the data and the layers of the classes allow. -/
theorem readObj_ne {P : Platform} {docs : ClassId → Option ClassDoc} {rank : ClassId → Nat} {R : Nat} (h : Layered docs rank R) :
    ∀ (k : Nat) (c : ClassId) (b : Bytes), b.length * (R + 1) + rank c < k → readObj P docs k c b ≠ .deep
  | 0, c, b, hk => by omega
  | k + 1, c, b, hk => by
    simp only [readObj]
    split
    · nofun
    · rename_i d hd
      split
      · nofun
      · refine bind_ne (readFields_ne d.fields (fun c' => rank c' < rank c) b.length (fun c' b' h1 h2 => readObj_ne h k c' b' ?_)
          (fun c' b' h1 => readObj_ne h k c' b' ?_) _ (h.fields c d hd) 0 b (Nat.le_refl _)) fun _ _ => nofun
        · have := Nat.mul_le_mul_right (R + 1) h2
          omega
        · have h3 := Nat.mul_le_mul_right (R + 1) (show b'.length + 1 ≤ b.length from h1)
          have := h.top c'
          rw [Nat.add_mul] at h3
          omega

end Verif.Ground

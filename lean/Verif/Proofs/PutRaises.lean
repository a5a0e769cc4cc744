import Verif.Proofs.PutClass
/-
Lemmas on what packing raises.
-/
namespace Verif
open Spec Sem

variable {P : Platform} {W : ClassId → Val → Parsed Bytes} {K : Err → Prop}

/-- The exceptions of packing itself. -/
def Common (e : Err) : Prop :=
  e = .structError ∨ e = .valueError ∨ e = .typeError ∨ e = .keyError ∨ e = .attributeError ∨ e = .overflowError ∨
    e = .indexError

theorem Parsed.bind_err {x : Parsed α} {f : α → Parsed β} {e : Err} (h : (x >>= f) = .err e) : x = .err e ∨ ∃ a, x = .ok a ∧ f a = .err e := by
  cases x with
  | ok a => exact .inr ⟨a, rfl, h⟩
  | err e' => cases h; exact .inl rfl
  | deep => cases h
  | odd => cases h

theorem fits_err {x : Option Bytes} {e : Err} (h : fits x = .err e) : e = .structError := by
  cases x <;> cases h; rfl

theorem putAll_err {w : Val → Parsed Bytes} {e : Err} : ∀ {vs : List Val}, putAll w vs = .err e → ∃ v, w v = .err e
  | [], h => by cases h
  | v :: vs, h => by
    rcases Parsed.bind_err h with h | ⟨_, _, h⟩
    · exact ⟨v, h⟩
    · rcases Parsed.bind_err h with h | ⟨_, _, h⟩
      · exact putAll_err h
      · cases h

theorem excess_common (hK : ∀ e, Common e → K e) (v : Val) : K (excess v) := by
  unfold excess
  split
  · exact hK _ (.inl rfl)
  · exact hK _ (.inr (.inr (.inr (.inr (.inr (.inl rfl))))))

mutual
theorem bare_kinds (hK : ∀ e, Common e → K e) {o : PObj} : ∀ (f : Fmt), K (f.bare o) ∨ f.PutCalls (f.bare o)
  | .int .. | .bool | .half | .single | .double | .chars _ | .pascal _ | .via .. => .inl (hK _ (.inl rfl))
  | .tup _ | .obj _ | .me => .inl (hK _ (.inr (.inr (.inl rfl))))
  | .counted _ | .until _ | .rest | .net | .text .. | .fixed .. | .list .. | .sized .. => .inl (hK _ (.inr (.inr (.inr (.inr (.inr (.inr rfl)))))))
  | .choice _ _ _ decider keys opts other => by
    simp only [Fmt.bare]
    split
    · exact .inr (.inl ⟨_, by assumption⟩)
    · split
      · exact .inl (hK _ (.inr (.inr (.inl rfl))))
      · split
        · exact (bareAt_kinds hK opts _).imp id fun h => .inr (.inl h)
        · exact (bareAt_kinds hK other _).imp id fun h => .inr (.inr h)
theorem bareAt_kinds (hK : ∀ e, Common e → K e) {o : PObj} : ∀ (fs : List Fmt) (k : Nat), K (Fmt.bareAt o fs k) ∨ Fmt.PutCallsAny fs (Fmt.bareAt o fs k)
  | [], _ => .inl (hK _ (.inr (.inl rfl)))
  | f :: _, 0 => (bare_kinds hK f).imp id .inl
  | _ :: fs, k + 1 => (bareAt_kinds hK fs k).imp id .inr
end

theorem surplus_kinds (hK : ∀ e, Common e → K e) {o : PObj} {items : List Fmt} {n : Nat} {e : Err} (h : surplus o items n = some e) :
    K e ∨ Fmt.PutCallsAny items e := by
  unfold surplus at h
  split at h
  · cases h
  · split at h
    · cases h; exact .inl (hK _ (.inl rfl))
    · split at h
      · split at h
        · cases h
        · cases h; exact (bare_kinds hK _).imp id .inl
      · cases h

mutual
theorem put_kinds (hK : ∀ e, Common e → K e) (hW : ∀ c v e, W c v = .err e → K e) {o : PObj} : ∀ (f : Fmt) {bo : ByteOrder} {v : Val} {e : Err},
    f.put P bo W o v = .err e → K e ∨ f.PutCalls e
  | .int s w, bo, v, e, h => by
    simp only [Fmt.put] at h
    split at h
    · split at h
      · cases h
      · cases h; exact .inl (hK _ (.inl rfl))
    · cases h; exact .inl (hK _ (.inl rfl))
  | .bool, _, _, _, h => by cases h
  | .half, _, _, _, h => by
    simp only [Fmt.put] at h
    split at h
    · split at h
      · cases h
      · cases h; exact .inl (excess_common hK _)
    · cases h; exact .inl (hK _ (.inl rfl))
  | .single, _, _, _, h => by
    simp only [Fmt.put] at h
    split at h
    · split at h
      · cases h
      · cases h; exact .inl (excess_common hK _)
    · cases h; exact .inl (hK _ (.inl rfl))
  | .double, _, _, _, h => by
    simp only [Fmt.put] at h
    split at h
    · cases h
    · cases h; exact .inl (hK _ (.inl rfl))
  | .chars n, _, _, _, h => by
    simp only [Fmt.put] at h
    exact .inl (hK _ (.inl (fits_err h)))
  | .pascal n, _, _, _, h => by
    simp only [Fmt.put] at h
    exact .inl (hK _ (.inl (fits_err h)))
  | .via _ f _ _ _, _, _, _, h => by
    simp only [Fmt.put] at h
    exact put_kinds hK hW f h
  | .counted w, _, _, _, h => by
    simp only [Fmt.put] at h
    split at h
    · cases h; exact .inl (hK _ (.inr (.inr (.inl rfl))))
    · split at h
      · cases h; exact .inl (hK _ (.inl rfl))
      · split at h
        · cases h; exact .inl (hK _ (.inr (.inl rfl)))
        · split at h
          · exact .inl (hK _ (.inl (fits_err h)))
          · cases h; exact .inl (hK _ (.inl rfl))
  | .until t, _, _, _, h => by
    simp only [Fmt.put] at h
    split at h
    · cases h
    · cases h; exact .inl (hK _ (.inl rfl))
    · cases h; exact .inl (hK _ (.inr (.inr (.inl rfl))))
  | .rest, _, _, _, h => by
    simp only [Fmt.put] at h
    split at h
    · cases h
    · cases h; exact .inl (hK _ (.inr (.inr (.inl rfl))))
  | .net, _, _, _, h => by
    simp only [Fmt.put] at h
    split at h
    · cases h; exact .inl (hK _ (.inr (.inr (.inl rfl))))
    · split at h
      · cases h; exact .inl (hK _ (.inr (.inl rfl)))
      · split at h
        · cases h; exact .inl (hK _ (.inl rfl))
        · split at h
          · exact .inl (hK _ (.inl (fits_err h)))
          · cases h; exact .inl (hK _ (.inl rfl))
  | .text f en _, _, v, _, h => by
    simp only [Fmt.put] at h
    split at h
    · exact (put_kinds hK hW f h).imp id .inl
    · cases h; exact .inr (.inr ⟨_, by assumption⟩)
  | .fixed n item, _, _, _, h => by
    simp only [Fmt.put] at h
    split at h
    · cases h; exact .inl (hK _ (.inr (.inr (.inl rfl))))
    · split at h
      · cases h; exact .inl (hK _ (.inr (.inl rfl)))
      · rcases Parsed.bind_err h with h | ⟨_, _, h⟩
        · obtain ⟨v, h⟩ := putAll_err h
          exact put_kinds hK hW item h
        · split at h
          · cases h
          · cases h; exact .inl (hK _ (.inr (.inl rfl)))
  | .list w item, _, _, _, h => by
    simp only [Fmt.put] at h
    split at h
    · cases h; exact .inl (hK _ (.inr (.inr (.inl rfl))))
    · rcases Parsed.bind_err h with h | ⟨_, _, h⟩
      · obtain ⟨v, h⟩ := putAll_err h
        exact put_kinds hK hW item h
      · exact .inl (hK _ (.inl (fits_err h)))
  | .sized w w2 item, _, _, _, h => by
    simp only [Fmt.put] at h
    split at h
    · cases h; exact .inl (hK _ (.inr (.inr (.inl rfl))))
    · rcases Parsed.bind_err h with h | ⟨_, _, h⟩
      · obtain ⟨v, h⟩ := putAll_err h
        exact put_kinds hK hW item h
      · rcases Parsed.bind_err h with h | ⟨_, _, h⟩
        · exact .inl (hK _ (.inl (fits_err h)))
        · exact .inl (hK _ (.inl (fits_err h)))
  | .tup items, _, _, _, h => by
    simp only [Fmt.put] at h
    split at h
    · cases h; exact .inl (hK _ (.inr (.inr (.inl rfl))))
    · split at h
      · rename_i hs
        cases h
        exact surplus_kinds hK hs
      · exact puts_kinds hK hW items h
  | .obj c, _, _, _, h => .inl (hW _ _ _ h)
  | .me, _, _, _, h => .inl (hW _ _ _ h)
  | .choice _ _ _ decider keys opts other, _, _, _, h => by
    simp only [Fmt.put] at h
    split at h
    · cases h; exact .inr (.inl ⟨_, by assumption⟩)
    · split at h
      · cases h; exact .inl (hK _ (.inr (.inr (.inl rfl))))
      · split at h
        · exact (putAt_kinds hK hW opts h).imp id fun h => .inr (.inl h)
        · exact (putAt_kinds hK hW other h).imp id fun h => .inr (.inr h)
theorem puts_kinds (hK : ∀ e, Common e → K e) (hW : ∀ c v e, W c v = .err e → K e) {o : PObj} : ∀ (fs : List Fmt) {bo : ByteOrder} {k : Nat} {vs : List Val} {e : Err},
    Fmt.puts P bo W o k fs vs = .err e → K e ∨ Fmt.PutCallsAny fs e
  | [], _, _, _, _, h => by cases h
  | f :: fs, _, _, [], _, h => by cases h; exact (bare_kinds hK f).imp id .inl
  | f :: fs, _, _, v :: vs, _, h => by
    simp only [Fmt.puts] at h
    split at h
    · cases h; exact .inl (hK _ (.inl rfl))
    rcases Parsed.bind_err h with h | ⟨_, _, h⟩
    · exact (put_kinds hK hW f h).imp id .inl
    · rcases Parsed.bind_err h with h | ⟨_, _, h⟩
      · exact (puts_kinds hK hW fs h).imp id .inr
      · cases h
theorem putAt_kinds (hK : ∀ e, Common e → K e) (hW : ∀ c v e, W c v = .err e → K e) {o : PObj} : ∀ (fs : List Fmt) {k : Nat} {v : Val} {e : Err},
    Fmt.putAt P W o fs k v = .err e → K e ∨ Fmt.PutCallsAny fs e
  | [], _, _, _, h => by cases h; exact .inl (hK _ (.inr (.inl rfl)))
  | f :: fs, 0, _, _, h => (put_kinds hK hW f h).imp id .inl
  | f :: fs, k + 1, _, _, h => (putAt_kinds hK hW fs h).imp id .inr
end

theorem putFields_kinds (hK : ∀ e, Common e → K e) (hW : ∀ c v e, W c v = .err e → K e) {bo : ByteOrder} {o : PObj} : ∀ (fs : List Field) {k : Nat} {vs : List Val} {e : Err},
    putFields P bo W o k fs vs = .err e → K e ∨ ∃ f ∈ fs, f.PutCalls e
  | [], _, _, _, h => by cases h
  | .value a f :: fs, _, [], _, h => by cases h
  | .when a c f d :: fs, _, [], _, h => by cases h
  | .value a f :: fs, _, v :: vs, _, h => by
    simp only [putFields] at h
    rcases Parsed.bind_err h with h | ⟨_, _, h⟩
    · exact (put_kinds hK hW f h).imp id fun (h : f.PutCalls _) => ⟨.value a f, by simp, h⟩
    · rcases Parsed.bind_err h with h | ⟨_, _, h⟩
      · exact (putFields_kinds hK hW fs h).imp id fun ⟨f, hf, h⟩ => ⟨f, by simp [hf], h⟩
      · cases h
  | .pad a n :: fs, _, vs, _, h => by
    simp only [putFields] at h
    rcases Parsed.bind_err h with h | ⟨_, _, h⟩
    · exact (putFields_kinds hK hW fs h).imp id fun ⟨f, hf, h⟩ => ⟨f, by simp [hf], h⟩
    · cases h
  | .when a c f d :: fs, _, v :: vs, _, h => by
    simp only [putFields] at h
    split at h
    · cases h; exact .inr ⟨_, List.mem_cons_self, .inr ⟨_, by assumption⟩⟩
    · split at h
      · cases h; exact .inl (hK _ (.inr (.inr (.inl rfl))))
      · split at h
        · rcases Parsed.bind_err h with h | ⟨_, _, h⟩
          · exact (put_kinds hK hW f h).imp id fun h => ⟨_, List.mem_cons_self, .inl h⟩
          · rcases Parsed.bind_err h with h | ⟨_, _, h⟩
            · exact (putFields_kinds hK hW fs h).imp id fun ⟨f, hf, h⟩ => ⟨f, by simp [hf], h⟩
            · cases h
        · exact (putFields_kinds hK hW fs h).imp id fun ⟨f, hf, h⟩ => ⟨f, by simp [hf], h⟩
        · cases h; exact .inl (hK _ (.inr (.inr (.inr (.inl rfl)))))

theorem putObj_kinds {docs : ClassId → Option ClassDoc} : ∀ (k : Nat) {v : Val} {e : Err}, putObj P docs k v = .err e →
    Common e ∨ ∃ c d f, docs c = some d ∧ f ∈ d.fields ∧ f.PutCalls e
  | 0, _, _, h => by cases h
  | k + 1, v, e, h => by
    have hat : Common .attributeError := .inr (.inr (.inr (.inr (.inl rfl))))
    by_cases hv : ∃ c own attrs, v = .obj c own attrs
    · obtain ⟨c, own, attrs, rfl⟩ := hv
      simp only [putObj] at h
      split at h
      · cases h; exact .inl hat
      · rename_i d hd
        split at h
        · cases h; exact .inl hat
        · rcases putFields_kinds (K := fun e => Common e ∨ ∃ c d f, docs c = some d ∧ f ∈ d.fields ∧ f.PutCalls e) (fun e h => .inl h)
            (fun c v e h => putObj_kinds k h) d.fields h with h | ⟨f, hf, h⟩
          · exact h
          · exact .inr ⟨c, d, f, hd, hf, h⟩
    · have : putObj P docs (k + 1) v = .err .attributeError := by
        cases v <;> first | rfl | exact absurd ⟨_, _, _, rfl⟩ hv
      rw [this] at h
      cases h
      exact .inl hat

/-! ### Deep enough -/

theorem Parsed.bind_deep {x : Parsed α} {f : α → Parsed β} (h : (x >>= f) = .deep) : x = .deep ∨ ∃ a, x = .ok a ∧ f a = .deep := by
  cases x with
  | ok a => exact .inr ⟨a, rfl, h⟩
  | err e' => cases h
  | deep => exact .inl rfl
  | odd => cases h

theorem fits_deep {x : Option Bytes} (h : fits x = .deep) : False := by
  cases x <;> cases h

theorem putAll_deep {w : Val → Parsed Bytes} : ∀ {vs : List Val}, putAll w vs = .deep → ∃ v ∈ vs, w v = .deep
  | [], h => by cases h
  | v :: vs, h => by
    rcases Parsed.bind_deep h with h | ⟨_, _, h⟩
    · exact ⟨v, by simp, h⟩
    · rcases Parsed.bind_deep h with h | ⟨_, _, h⟩
      · obtain ⟨u, hu, h⟩ := putAll_deep h
        exact ⟨u, by simp [hu], h⟩
      · cases h

theorem meant_nodes : ∀ v : Val, (meant v).nodes = v.nodes
  | .custom _ v => by rw [meant, Val.nodes]; exact meant_nodes v
  | .none | .int _ | .bool _ | .float _ | .bytes _ | .str _ | .list _ | .tup _ | .obj .. | .gen => rfl

theorem nodesList_count : ∀ {vs : List Val} {u : Val}, u ∈ vs → u.nodes.length ≤ (Val.nodesList vs).length
  | v :: vs, u, h => by
    rw [Val.nodesList, List.length_append]
    rcases List.mem_cons.1 h with rfl | h
    · omega
    · have := nodesList_count h; omega

theorem nodesAttrs_lookup {a : Name} : ∀ {as : List (Name × Val)} {u : Val}, as.lookup a = some u → u.nodes.length ≤ (Val.nodesAttrs as).length
  | (b, v) :: vs, u, h => by
    rw [Val.nodesAttrs, List.length_append]
    simp only [List.lookup] at h
    split at h
    · cases h; omega
    · have := nodesAttrs_lookup h; omega

theorem pick_nodes {attrs : List (Name × Val)} : ∀ {as : List Name} {vs : List Val} {u : Val}, pick attrs as = some vs → u ∈ vs →
    u.nodes.length ≤ (Val.nodesAttrs attrs).length
  | [], _, _, h, hu => by cases h; cases hu
  | a :: as, vs, u, h, hu => by
    simp only [pick] at h
    split at h
    · rename_i v vs' h1 h2
      cases h
      rcases List.mem_cons.1 hu with rfl | hu
      · exact nodesAttrs_lookup h1
      · exact pick_nodes h2 hu
    · cases h

theorem elements_nodes {v u : Val} {vs : List Val} (h : elements v = some vs) (hu : u ∈ vs) : u.nodes.length ≤ v.nodes.length := by
  rw [← meant_nodes v]
  unfold elements at h
  split at h
  · rename_i e; cases h; rw [e, Val.nodes]; exact nodesList_count hu
  · rename_i e; cases h; rw [e, Val.nodes]; exact nodesList_count hu
  · cases h
    obtain ⟨_, _, rfl⟩ := List.mem_map.1 hu
    exact Nat.zero_le _
  · cases h
    obtain ⟨_, _, rfl⟩ := List.mem_map.1 hu
    exact Nat.zero_le _
  · cases h

mutual
theorem put_deep {o : PObj} : ∀ (f : Fmt) {bo : ByteOrder} {v : Val}, f.put P bo W o v = .deep → ∃ c u, W c u = .deep ∧ u.nodes.length ≤ v.nodes.length
  | .int s w, bo, v, h => by
    simp only [Fmt.put] at h
    split at h
    · split at h <;> cases h
    · cases h
  | .bool, _, _, h => by cases h
  | .half, _, _, h => by
    simp only [Fmt.put] at h
    split at h
    · split at h <;> cases h
    · cases h
  | .single, _, _, h => by
    simp only [Fmt.put] at h
    split at h
    · split at h <;> cases h
    · cases h
  | .double, _, _, h => by
    simp only [Fmt.put] at h
    split at h <;> cases h
  | .chars n, _, _, h => by simp only [Fmt.put] at h; exact (fits_deep h).elim
  | .pascal n, _, _, h => by simp only [Fmt.put] at h; exact (fits_deep h).elim
  | .via _ f _ _ _, _, _, h => by simp only [Fmt.put] at h; exact put_deep f h
  | .counted w, _, _, h => by
    simp only [Fmt.put] at h
    split at h
    · cases h
    · split at h
      · cases h
      · split at h
        · cases h
        · split at h
          · exact (fits_deep h).elim
          · cases h
  | .until t, _, _, h => by
    simp only [Fmt.put] at h
    split at h <;> cases h
  | .rest, _, _, h => by
    simp only [Fmt.put] at h
    split at h <;> cases h
  | .net, _, _, h => by
    simp only [Fmt.put] at h
    split at h
    · cases h
    · split at h
      · cases h
      · split at h
        · cases h
        · split at h
          · exact (fits_deep h).elim
          · cases h
  | .text f en _, _, v, h => by
    simp only [Fmt.put] at h
    split at h
    · obtain ⟨c, u, h1, h2⟩ := put_deep f h
      exact ⟨c, u, h1, Nat.le_trans h2 (Nat.zero_le _)⟩
    · cases h
  | .fixed n item, _, _, h => by
    simp only [Fmt.put] at h
    split at h
    · cases h
    · rename_i vs hvs
      split at h
      · cases h
      · rcases Parsed.bind_deep h with h | ⟨_, _, h⟩
        · obtain ⟨v, hv, h⟩ := putAll_deep h
          obtain ⟨c, u, h1, h2⟩ := put_deep item h
          exact ⟨c, u, h1, Nat.le_trans h2 (elements_nodes hvs hv)⟩
        · split at h <;> cases h
  | .list w item, _, _, h => by
    simp only [Fmt.put] at h
    split at h
    · cases h
    · rename_i vs hvs
      rcases Parsed.bind_deep h with h | ⟨_, _, h⟩
      · obtain ⟨v, hv, h⟩ := putAll_deep h
        obtain ⟨c, u, h1, h2⟩ := put_deep item h
        exact ⟨c, u, h1, Nat.le_trans h2 (elements_nodes hvs hv)⟩
      · exact (fits_deep h).elim
  | .sized w w2 item, _, _, h => by
    simp only [Fmt.put] at h
    split at h
    · cases h
    · rename_i vs hvs
      rcases Parsed.bind_deep h with h | ⟨_, _, h⟩
      · obtain ⟨v, hv, h⟩ := putAll_deep h
        obtain ⟨c, u, h1, h2⟩ := put_deep item h
        exact ⟨c, u, h1, Nat.le_trans h2 (elements_nodes hvs hv)⟩
      · rcases Parsed.bind_deep h with h | ⟨_, _, h⟩
        · exact (fits_deep h).elim
        · exact (fits_deep h).elim
  | .tup items, _, _, h => by
    simp only [Fmt.put] at h
    split at h
    · cases h
    · rename_i vs hvs
      split at h
      · cases h
      · obtain ⟨v, hv, c, u, h1, h2⟩ := puts_deep items h
        exact ⟨c, u, h1, Nat.le_trans h2 (elements_nodes hvs hv)⟩
  | .obj c, _, v, h => ⟨c, v, h, Nat.le_refl _⟩
  | .me, _, v, h => ⟨o.cls, v, h, Nat.le_refl _⟩
  | .choice _ _ _ decider keys opts other, _, _, h => by
    simp only [Fmt.put] at h
    split at h
    · cases h
    · split at h
      · cases h
      · split at h
        · exact putAt_deep opts h
        · exact putAt_deep other h
theorem puts_deep {o : PObj} : ∀ (fs : List Fmt) {bo : ByteOrder} {k : Nat} {vs : List Val},
    Fmt.puts P bo W o k fs vs = .deep → ∃ v ∈ vs, ∃ c u, W c u = .deep ∧ u.nodes.length ≤ v.nodes.length
  | [], _, _, _, h => by cases h
  | f :: fs, _, _, [], h => by cases h
  | f :: fs, _, _, v :: vs, h => by
    simp only [Fmt.puts] at h
    split at h
    · cases h
    rcases Parsed.bind_deep h with h | ⟨_, _, h⟩
    · exact ⟨v, by simp, put_deep f h⟩
    · rcases Parsed.bind_deep h with h | ⟨_, _, h⟩
      · obtain ⟨v, hv, h⟩ := puts_deep fs h
        exact ⟨v, by simp [hv], h⟩
      · cases h
theorem putAt_deep {o : PObj} : ∀ (fs : List Fmt) {k : Nat} {v : Val},
    Fmt.putAt P W o fs k v = .deep → ∃ c u, W c u = .deep ∧ u.nodes.length ≤ v.nodes.length
  | [], _, _, h => by cases h
  | f :: fs, 0, _, h => put_deep f h
  | f :: fs, k + 1, _, h => putAt_deep fs h
end

theorem putFields_deep {bo : ByteOrder} {o : PObj} : ∀ (fs : List Field) {k : Nat} {vs : List Val},
    putFields P bo W o k fs vs = .deep → ∃ v ∈ vs, ∃ c u, W c u = .deep ∧ u.nodes.length ≤ v.nodes.length
  | [], _, _, h => by cases h
  | .value a f :: fs, _, [], h => by cases h
  | .when a c f d :: fs, _, [], h => by cases h
  | .value a f :: fs, _, v :: vs, h => by
    simp only [putFields] at h
    rcases Parsed.bind_deep h with h | ⟨_, _, h⟩
    · exact ⟨v, by simp, put_deep f h⟩
    · rcases Parsed.bind_deep h with h | ⟨_, _, h⟩
      · obtain ⟨v, hv, h⟩ := putFields_deep fs h
        exact ⟨v, by simp [hv], h⟩
      · cases h
  | .pad a n :: fs, _, vs, h => by
    simp only [putFields] at h
    rcases Parsed.bind_deep h with h | ⟨_, _, h⟩
    · exact putFields_deep fs h
    · cases h
  | .when a c f d :: fs, _, v :: vs, h => by
    simp only [putFields] at h
    split at h
    · cases h
    · split at h
      · cases h
      · split at h
        · rcases Parsed.bind_deep h with h | ⟨_, _, h⟩
          · exact ⟨v, by simp, put_deep f h⟩
          · rcases Parsed.bind_deep h with h | ⟨_, _, h⟩
            · obtain ⟨v, hv, h⟩ := putFields_deep fs h
              exact ⟨v, by simp [hv], h⟩
            · cases h
        · obtain ⟨v, hv, h⟩ := putFields_deep fs h
          exact ⟨v, by simp [hv], h⟩
        · cases h

/-- Deeper than there are objects one does not get. -/
theorem putObj_deep {docs : ClassId → Option ClassDoc} : ∀ (k : Nat) {v : Val}, v.nodes.length < k → putObj P docs k v ≠ .deep
  | k + 1, v, hk, h => by
    by_cases hv : ∃ c own attrs, v = .obj c own attrs
    · obtain ⟨c, own, attrs, rfl⟩ := hv
      simp only [putObj] at h
      split at h
      · cases h
      · split at h
        · cases h
        · rename_i vs hp
          obtain ⟨v, hv, c, u, h1, h2⟩ := putFields_deep _ h
          have := pick_nodes hp hv
          rw [Val.nodes, List.length_cons] at hk
          exact putObj_deep k (by omega) h1
    · have : putObj P docs (k + 1) v = .err .attributeError := by
        cases v <;> first | rfl | exact absurd ⟨_, _, _, rfl⟩ hv
      rw [this] at h
      cases h

/-! ### Values for all fields -/

theorem Parsed.bind_odd {x : Parsed α} {f : α → Parsed β} (h : (x >>= f) = .odd) : x = .odd ∨ ∃ a, x = .ok a ∧ f a = .odd := by
  cases x with
  | ok a => exact .inr ⟨a, rfl, h⟩
  | err e' => cases h
  | deep => cases h
  | odd => exact .inl rfl

theorem fits_odd {x : Option Bytes} (h : fits x = .odd) : False := by
  cases x <;> cases h

theorem putAll_odd {w : Val → Parsed Bytes} : ∀ {vs : List Val}, putAll w vs = .odd → ∃ v, w v = .odd
  | [], h => by cases h
  | v :: vs, h => by
    rcases Parsed.bind_odd h with h | ⟨_, _, h⟩
    · exact ⟨v, h⟩
    · rcases Parsed.bind_odd h with h | ⟨_, _, h⟩
      · exact putAll_odd h
      · cases h

mutual
theorem put_odd {o : PObj} : ∀ (f : Fmt) {bo : ByteOrder} {v : Val}, f.put P bo W o v = .odd → ∃ c u, W c u = .odd
  | .int s w, bo, v, h => by
    simp only [Fmt.put] at h
    split at h
    · split at h <;> cases h
    · cases h
  | .bool, _, _, h => by cases h
  | .half, _, _, h => by
    simp only [Fmt.put] at h
    split at h
    · split at h <;> cases h
    · cases h
  | .single, _, _, h => by
    simp only [Fmt.put] at h
    split at h
    · split at h <;> cases h
    · cases h
  | .double, _, _, h => by
    simp only [Fmt.put] at h
    split at h <;> cases h
  | .chars n, _, _, h => by simp only [Fmt.put] at h; exact (fits_odd h).elim
  | .pascal n, _, _, h => by simp only [Fmt.put] at h; exact (fits_odd h).elim
  | .via _ f _ _ _, _, _, h => by simp only [Fmt.put] at h; exact put_odd f h
  | .counted w, _, _, h => by
    simp only [Fmt.put] at h
    split at h
    · cases h
    · split at h
      · cases h
      · split at h
        · cases h
        · split at h
          · exact (fits_odd h).elim
          · cases h
  | .until t, _, _, h => by
    simp only [Fmt.put] at h
    split at h <;> cases h
  | .rest, _, _, h => by
    simp only [Fmt.put] at h
    split at h <;> cases h
  | .net, _, _, h => by
    simp only [Fmt.put] at h
    split at h
    · cases h
    · split at h
      · cases h
      · split at h
        · cases h
        · split at h
          · exact (fits_odd h).elim
          · cases h
  | .text f en _, _, v, h => by
    simp only [Fmt.put] at h
    split at h
    · exact put_odd f h
    · cases h
  | .fixed n item, _, _, h => by
    simp only [Fmt.put] at h
    split at h
    · cases h
    · rename_i vs hvs
      split at h
      · cases h
      · rcases Parsed.bind_odd h with h | ⟨_, _, h⟩
        · obtain ⟨v, h⟩ := putAll_odd h
          exact put_odd item h
        · split at h <;> cases h
  | .list w item, _, _, h => by
    simp only [Fmt.put] at h
    split at h
    · cases h
    · rename_i vs hvs
      rcases Parsed.bind_odd h with h | ⟨_, _, h⟩
      · obtain ⟨v, h⟩ := putAll_odd h
        exact put_odd item h
      · exact (fits_odd h).elim
  | .sized w w2 item, _, _, h => by
    simp only [Fmt.put] at h
    split at h
    · cases h
    · rename_i vs hvs
      rcases Parsed.bind_odd h with h | ⟨_, _, h⟩
      · obtain ⟨v, h⟩ := putAll_odd h
        exact put_odd item h
      · rcases Parsed.bind_odd h with h | ⟨_, _, h⟩
        · exact (fits_odd h).elim
        · exact (fits_odd h).elim
  | .tup items, _, _, h => by
    simp only [Fmt.put] at h
    split at h
    · cases h
    · rename_i vs hvs
      split at h
      · cases h
      · exact puts_odd items h
  | .obj c, _, v, h => ⟨c, v, h⟩
  | .me, _, v, h => ⟨o.cls, v, h⟩
  | .choice _ _ _ decider keys opts other, _, _, h => by
    simp only [Fmt.put] at h
    split at h
    · cases h
    · split at h
      · cases h
      · split at h
        · exact putAt_odd opts h
        · exact putAt_odd other h
theorem puts_odd {o : PObj} : ∀ (fs : List Fmt) {bo : ByteOrder} {k : Nat} {vs : List Val},
    Fmt.puts P bo W o k fs vs = .odd → ∃ c u, W c u = .odd
  | [], _, _, _, h => by cases h
  | f :: fs, _, _, [], h => by cases h
  | f :: fs, _, _, v :: vs, h => by
    simp only [Fmt.puts] at h
    split at h
    · cases h
    rcases Parsed.bind_odd h with h | ⟨_, _, h⟩
    · exact put_odd f h
    · rcases Parsed.bind_odd h with h | ⟨_, _, h⟩
      · exact puts_odd fs h
      · cases h
theorem putAt_odd {o : PObj} : ∀ (fs : List Fmt) {k : Nat} {v : Val},
    Fmt.putAt P W o fs k v = .odd → ∃ c u, W c u = .odd
  | [], _, _, h => by cases h
  | f :: fs, 0, _, h => put_odd f h
  | f :: fs, k + 1, _, h => putAt_odd fs h
end

theorem putFields_odd {bo : ByteOrder} {o : PObj} : ∀ (fs : List Field) {k : Nat} {vs : List Val},
    vs.length = (fs.filter (!·.isPad)).length → putFields P bo W o k fs vs = .odd → ∃ c u, W c u = .odd
  | [], _, _, _, h => by cases h
  | .value a f :: fs, _, [], hl, _ => by cases hl
  | .when a c f d :: fs, _, [], hl, _ => by cases hl
  | .value a f :: fs, _, v :: vs, hl, h => by
    simp only [putFields] at h
    rcases Parsed.bind_odd h with h | ⟨_, _, h⟩
    · exact put_odd f h
    · rcases Parsed.bind_odd h with h | ⟨_, _, h⟩
      · exact putFields_odd fs (by simpa [List.filter, Field.isPad] using hl) h
      · cases h
  | .pad a n :: fs, _, vs, hl, h => by
    simp only [putFields] at h
    rcases Parsed.bind_odd h with h | ⟨_, _, h⟩
    · exact putFields_odd fs (by simpa [List.filter, Field.isPad] using hl) h
    · cases h
  | .when a c f d :: fs, _, v :: vs, hl, h => by
    simp only [putFields] at h
    split at h
    · cases h
    · split at h
      · cases h
      · split at h
        · rcases Parsed.bind_odd h with h | ⟨_, _, h⟩
          · exact put_odd f h
          · rcases Parsed.bind_odd h with h | ⟨_, _, h⟩
            · exact putFields_odd fs (by simpa [List.filter, Field.isPad] using hl) h
            · cases h
        · exact putFields_odd fs (by simpa [List.filter, Field.isPad] using hl) h
        · cases h

/-- Every object is packed or an exception is raised. -/
theorem putObj_odd {docs : ClassId → Option ClassDoc} : ∀ (k : Nat) {v : Val}, putObj P docs k v ≠ .odd
  | 0, _, h => by cases h
  | k + 1, v, h => by
    by_cases hv : ∃ c own attrs, v = .obj c own attrs
    · obtain ⟨c, own, attrs, rfl⟩ := hv
      simp only [putObj] at h
      split at h
      · cases h
      · split at h
        · cases h
        · rename_i vs hp
          obtain ⟨c, u, h1⟩ := putFields_odd _ (by rw [pick_count hp]; simp [ClassDoc.attrs]) h
          exact putObj_odd k h1
    · have : putObj P docs (k + 1) v = .err .attributeError := by
        cases v <;> first | rfl | exact absurd ⟨_, _, _, rfl⟩ hv
      rw [this] at h
      cases h

end Verif

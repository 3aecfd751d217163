import Verif.Borealis.Props.Files
/-!
# C57: what a write leaves
-/
namespace Verif.Bor
open Verif

/-! ## The loops, whatever happens -/

theorem writeFields_kept (h : H5Cfg) (comp : Option PyStr) (attrs : TyTable) (taken : List PyStr) (g : Group)
    (r : Rec) :
    (∃ ds : Dict PyStr Dset, (writeFields h comp attrs taken g r).2.dsets = g.dsets ++ ds ∧
      ∀ k ∈ ds.keys, k ∈ r.keys ∧ k ∉ attrs.keys) ∧
    ∀ k, ¬ (k ∈ r.keys ∧ k ∈ attrs.keys) → (writeFields h comp attrs taken g r).2.attrs.get? k = g.attrs.get? k := by
  induction r generalizing g with
  | nil => exact ⟨⟨[], by simp [writeFields], by simp⟩, fun _ _ => rfl⟩
  | cons p r ih =>
    obtain ⟨k, v⟩ := p
    have stop : ∀ e : Err, (∃ ds : Dict PyStr Dset, (((.error e, g) : Except Err Unit × Group)).2.dsets = g.dsets ++ ds ∧
        ∀ k' ∈ ds.keys, k' ∈ Dict.keys ((k, v) :: r) ∧ k' ∉ attrs.keys) ∧
        ∀ k', ¬ (k' ∈ Dict.keys ((k, v) :: r) ∧ k' ∈ attrs.keys) →
          (((.error e, g) : Except Err Unit × Group)).2.attrs.get? k' = g.attrs.get? k' :=
      fun e => ⟨⟨[], by simp, by simp⟩, fun _ _ => rfl⟩
    rw [writeFields]
    by_cases ha : k ∈ attrs.keys
    · rw [if_pos ha]
      cases hs : storeAttr v with
      | error e => exact stop e
      | ok a =>
        obtain ⟨⟨ds, h1, h2⟩, h3⟩ := ih { g with attrs := g.attrs.set k a }
        refine ⟨⟨ds, h1, fun k' hk' => ⟨by simp [(h2 k' hk').1], (h2 k' hk').2⟩⟩, fun k' hk' => ?_⟩
        have hne : k' ≠ k := fun he => hk' ⟨by simp [he], he ▸ ha⟩
        rw [h3 k' fun c => hk' ⟨by simp [c.1], c.2⟩]
        exact Dict.get?_set_ne _ (Ne.symm hne) _
    · rw [if_neg ha]
      cases hs : storeDset h comp v with
      | error e => exact stop e
      | ok d =>
        simp only
        split
        · exact stop _
        · obtain ⟨⟨ds, h1, h2⟩, h3⟩ := ih { g with dsets := g.dsets ++ [(k, d)] }
          refine ⟨⟨(k, d) :: ds, by rw [h1]; simp, fun k' hk' => ?_⟩, fun k' hk' => ?_⟩
          · simp only [Dict.keys_cons, List.mem_cons] at hk' ⊢
            rcases hk' with rfl | hk'
            · exact ⟨.inl rfl, ha⟩
            · exact ⟨.inr (h2 k' hk').1, (h2 k' hk').2⟩
          · exact h3 k' fun c => hk' ⟨by simp [c.1], c.2⟩

theorem writeRecords_kept (h : H5Cfg) (comp : Option PyStr) (fmt : Format) (f : H5) (rs : Records) :
    (writeRecords h comp fmt f rs).2.root = f.root ∧
    ∃ gs : Dict PyStr Group, (writeRecords h comp fmt f rs).2.groups = f.groups ++ gs ∧ gs.keys <+: rs.keys := by
  induction rs generalizing f with
  | nil => exact ⟨rfl, [], by simp [writeRecords], List.prefix_rfl⟩
  | cons p rs ih =>
    obtain ⟨n, r⟩ := p
    rw [writeRecords]
    split
    · exact ⟨rfl, [], by simp, by simp⟩
    · split
      · exact ⟨rfl, [], by simp, by simp⟩
      · split
        · rename_i g _
          exact ⟨rfl, [(n, g)], rfl, by simp⟩
        · rename_i g _
          obtain ⟨h1, gs, h2, h3⟩ := ih { f with groups := f.groups ++ [(n, g)] }
          exact ⟨h1, (n, g) :: gs, by rw [h2]; simp, by simpa using h3⟩

/-! ## Failures before the file is opened, and other files -/

/-- The write concerns one file only. -/
def OnlyFile (fs fs' : FSys) (p : PyStr) : Prop :=
  fs'.node = fs.node ∧ ∀ q, fs.node q ≠ fs.node p → fs'.at q = fs.at q

theorem onlyFile_refl (fs : FSys) (p : PyStr) : OnlyFile fs fs p := ⟨rfl, fun _ _ => rfl⟩

theorem onlyFile_put (fs : FSys) (p : PyStr) (c : File) : OnlyFile fs (fs.put p c) p := by
  refine ⟨rfl, fun q hq => ?_⟩
  unfold FSys.at FSys.put
  simp [hq]

theorem writing_only (fs : FSys) (p : PyStr) (w : H5 → Except Err Unit × H5) : OnlyFile fs (writing fs p w).2 p := by
  unfold writing
  split
  · exact onlyFile_refl ..
  · exact onlyFile_put ..

theorem OnlyFile.trans {a b c : FSys} {p : PyStr} (h1 : OnlyFile a b p) (h2 : OnlyFile b c p) : OnlyFile a c p :=
  ⟨h2.1.trans h1.1, fun q hq => (h2.2 q (by rw [h1.1]; exact hq)).trans (h1.2 q hq)⟩

theorem siteWrite_only (h : H5Cfg) (fs : FSys) (p : PyStr) (d : Data) (ft : PyStr) (comp : Option PyStr) :
    OnlyFile fs (siteWrite h fs p d ft comp).2 p := by
  unfold siteWrite
  split
  · exact onlyFile_refl ..
  · exact writing_only ..

theorem arrayWrite_only (h : H5Cfg) (fs : FSys) (p : PyStr) (d : Data) (ft : PyStr) (comp : Option PyStr) :
    OnlyFile fs (arrayWrite h fs p d ft comp).2 p := by
  unfold arrayWrite
  split
  · exact onlyFile_refl ..
  · exact writing_only ..

theorem returnWriter_only (h : H5Cfg) (fs : FSys) (p : PyStr) (d : Data) (ft : PyStr) (comp : Option (Option PyStr)) :
    OnlyFile fs (returnWriter h fs p d ft comp).2 p := by
  unfold returnWriter
  have ha := arrayWrite_only h fs p d ft (comp.getD arrayCompression)
  revert ha
  generalize arrayWrite h fs p d ft (comp.getD arrayCompression) = x
  obtain ⟨res, fs1⟩ := x
  intro ha
  cases res with
  | ok u => exact ha
  | error e =>
    simp only
    split
    · have hs := siteWrite_only h fs1 p d ft (comp.getD siteCompression)
      revert hs
      generalize siteWrite h fs1 p d ft (comp.getD siteCompression) = y
      obtain ⟨res, fs2⟩ := y
      intro hs
      cases res <;> exact ha.trans hs
    · exact ha

/-- **C57** (part): whatever happens, the writers leave every other file as it is. -/
theorem C57_other_files_partial (h : H5Cfg) (fs : FSys) (p : PyStr) (d : Data) (ft : PyStr) (st : Option PyStr)
    (comp : Option (Option PyStr)) (q : PyStr) (hq : fs.node q ≠ fs.node p) :
    (borealisWrite h fs p d ft st comp).2.at q = fs.at q := by
  have ha := arrayWrite_only h fs p d ft (comp.getD arrayCompression)
  have hs := siteWrite_only h fs p d ft (comp.getD siteCompression)
  unfold borealisWrite
  cases st with
  | none => exact (returnWriter_only ..).2 q hq
  | some s =>
    simp only
    split
    · revert hs
      generalize siteWrite h fs p d ft (comp.getD siteCompression) = y
      obtain ⟨res, fs2⟩ := y
      intro hs
      cases res <;> exact hs.2 q hq
    · split
      · revert ha
        generalize arrayWrite h fs p d ft (comp.getD arrayCompression) = y
        obtain ⟨res, fs2⟩ := y
        intro ha
        cases res <;> exact ha.2 q hq
      · rfl

example : (siteWrite sampleH5 (noFiles.put (py! "g") (.raw [1])) (py! "f") (.records (sampleFileRecords .v07 .bfiq))
    (py! "bfiq") none).2.at (py! "g") = some (.raw [1]) := by
  decide +kernel

/-- The record is not one that the format describes. -/
def NotConforming (v : Version) (t : FType) (r : Rec) : Prop :=
  ¬ Conforms (fun _ => IsNumpy) (formatOf v t).siteSingleTypes (formatOf v t).siteArrayTypes r

/-- **C57** (part): records of which one is not as the format requires are refused, and no file
changes; neither does a path whose content is not HDF5. -/
theorem C57_refused_partial (h : H5Cfg) (fs : FSys) (p : PyStr) (rs : Records) (v : Version) (t : FType)
    (comp : Option PyStr) (ht : t ≠ .rawrf) (hv : FirstOfVersion v rs)
    (hbad : (∃ n r, (n, r) ∈ rs ∧ NotConforming v t r) ∨ ∃ b, fs.at p = some (.raw b)) :
    ∃ e, siteWrite h fs p (.records rs) t.name comp = (.error e, fs) := by
  cases hc : siteWriteCheck (.records rs) t.name with
  | error e => exact ⟨e, by unfold siteWrite; rw [hc]⟩
  | ok x =>
    obtain ⟨fmt, rs'⟩ := x
    obtain ⟨t', v', h1, h2, rfl, rfl, ⟨s, hs, hsv⟩, h5⟩ := siteWriteCheck_ok hc
    cases ftype_name_inj h2
    obtain ⟨s', hs', hsv'⟩ := siteDataHash_of hv
    rw [hs] at hs'
    cases hs'
    rw [hsv] at hsv'
    cases hsv'
    rcases hbad with ⟨n, r, hm, hnc⟩ | ⟨b, hb⟩
    · exact absurd ((checkRecord_ok_iff (C34_site_tables _ t ht) r).1 (h5 n r hm)) hnc
    · refine ⟨.osError, ?_⟩
      unfold siteWrite
      rw [hc]
      simp only [writing, FSys.openA, hb]

/-- A record without a field. -/
example : ∃ e, siteWrite sampleH5 noFiles (py! "f")
    (.records [(py! "1", (sampleFileRecord .v06 .rawacf).filter fun p => p.1 ≠ py! "main_acfs")]) (py! "rawacf") none =
      (.error e, noFiles) := by
  refine C57_refused_partial sampleH5 noFiles (py! "f") _ .v06 .rawacf none (by decide) ?_ (.inl ⟨_, _, .head _, ?_⟩)
  · exact ⟨py! "1", _, by rfl, by decide, py! ".1-2-gabc", by unfold Holds; decide +kernel, .inr ⟨_, .inl rfl⟩⟩
  · intro c
    have h0 := (checkRecord_ok_iff (C34_site_tables .v06 .rawacf (by decide)) _).2 c
    revert h0
    decide +kernel

/-- **C57** (part): arrays that are not as the format requires are refused, and no file changes. -/
theorem C57_arrays_refused_partial (h : H5Cfg) (fs : FSys) (p : PyStr) (r : Rec) (v : Version) (t : FType)
    (comp : Option PyStr) (ht : t ≠ .rawrf) (hv : OfVersion v r)
    (hbad : ¬ Conforms ArrayAccepted (formatOf v t).arraySingleTypes (formatOf v t).arrayArrayTypes r ∨
      ∃ b, fs.at p = some (.raw b)) :
    ∃ e, arrayWrite h fs p (.arrays r) t.name comp = (.error e, fs) := by
  cases hc : arrayWriteCheck (.arrays r) t.name with
  | error e => exact ⟨e, by unfold arrayWrite; rw [hc]⟩
  | ok x =>
    obtain ⟨fmt, r'⟩ := x
    obtain ⟨t', v', h1, h2, rfl, rfl, ⟨s, hs, hsv⟩, h5⟩ := arrayWriteCheck_ok hc
    cases ftype_name_inj h2
    obtain ⟨s', hs', hsv'⟩ := arrayDataHash_of hv
    rw [hs] at hs'
    cases hs'
    rw [hsv] at hsv'
    cases hsv'
    rcases hbad with hnc | ⟨b, hb⟩
    · obtain ⟨good, hu⟩ := C34_array_tables v t ht
      exact absurd ((checkArrays_ok_iff good hu r').1 h5).1 hnc
    · refine ⟨.osError, ?_⟩
      unfold arrayWrite
      rw [hc]
      simp only [writing, FSys.openA, hb]

example : ∃ e, arrayWrite sampleH5 (noFiles.put (py! "f") (.raw [7])) (py! "f") (.arrays (sampleFileArrays .v06 .rawacf))
    (py! "rawacf") none = (.error e, noFiles.put (py! "f") (.raw [7])) :=
  C57_arrays_refused_partial sampleH5 _ (py! "f") _ .v06 .rawacf none (by decide) sampleArrays_kept.1 (.inr ⟨[7], rfl⟩)

/-! ## Existing files -/

/-- What was in the file is still there: the root, and every group. -/
structure GroupsKept (f f' : H5) : Prop where
  root : f'.root = f.root
  groups : ∀ n g, f.groups.get? n = some g → f'.groups.get? n = some g

theorem get?_append_left {κ α : Type} [DecidableEq κ] {d e : Dict κ α} {k : κ} {v : α} (h : d.get? k = some v) :
    Dict.get? (d ++ e) k = some v := by
  induction d with
  | nil => cases h
  | cons p d ih =>
    obtain ⟨k', v'⟩ := p
    rw [List.cons_append, Dict.get?]
    rw [Dict.get?] at h
    split at h
    · rename_i hk; rw [if_pos hk]; exact h
    · rename_i hk; rw [if_neg hk]; exact ih h

/-- **C57** (part, and the reason that it is violated): whatever happens, the content of an existing file
stays and the new groups have the names of the first records. -/
theorem C57_site_kept (h : H5Cfg) (fs : FSys) (p : PyStr) (rs : Records) (ft : PyStr) (comp : Option PyStr) (f : H5)
    (hf : fs.at p = some (.h5 f)) :
    ∃ f', (siteWrite h fs p (.records rs) ft comp).2.at p = some (.h5 f') ∧ GroupsKept f f' ∧
      ∃ ns, ns <+: rs.keys ∧ f'.groups.keys = f.groups.keys ++ ns := by
  have nothing : ∃ f', fs.at p = some (.h5 f') ∧ GroupsKept f f' ∧
      ∃ ns, ns <+: rs.keys ∧ f'.groups.keys = f.groups.keys ++ ns :=
    ⟨f, hf, ⟨rfl, fun _ _ => id⟩, [], by simp, by simp⟩
  unfold siteWrite
  cases hc : siteWriteCheck (.records rs) ft with
  | error e => exact nothing
  | ok x =>
    obtain ⟨fmt, rs'⟩ := x
    obtain ⟨t, v, _, _, _, rfl, _⟩ := siteWriteCheck_ok hc
    simp only
    rw [writing_fst (f := f) (by unfold FSys.openA; rw [hf])]
    obtain ⟨h1, gs, h2, h3⟩ := writeRecords_kept h comp fmt f rs'
    refine ⟨_, at_put .., ⟨h1, fun n g hg => ?_⟩, gs.keys, h3, ?_⟩
    · rw [h2]
      exact get?_append_left hg
    · rw [h2]
      simp [Dict.keys]

/-- **C57** (part): a successful write adds all records, none of which was there before. -/
theorem C57_site_added (h : H5Cfg) (fs fs' : FSys) (p : PyStr) (rs : Records) (ft : PyStr) (comp : Option PyStr) (f : H5)
    (hf : fs.at p = some (.h5 f)) (hw0 : siteWrite h fs p (.records rs) ft comp = (.ok (), fs')) :
    ∃ f', fs'.at p = some (.h5 f') ∧ f'.groups.keys = f.groups.keys ++ rs.keys ∧
      (∀ n ∈ rs.keys, n ∉ f.groups.keys ∧ n ∉ f.root.dsets.keys) ∧ rs.NodupKeys := by
  obtain ⟨fmt, rs', hc, hw⟩ := siteWrite_ok hw0
  obtain ⟨t, v, _, _, _, rfl, _⟩ := siteWriteCheck_ok hc
  obtain ⟨f0, f', ho, hw1, rfl⟩ := writing_ok hw
  have : f0 = f := by
    unfold FSys.openA at ho
    rw [hf] at ho
    cases ho; rfl
  subst this
  obtain ⟨_, ⟨gs, h1, h2, _⟩, h3, h4⟩ := writeRecords_written hw1
  refine ⟨f', at_put .., ?_, fun n hn => ?_, h4⟩
  · rw [h1, ← h2]
    simp [Dict.keys]
  · have := h3 n hn
    rw [mem_H5keys] at this
    exact ⟨fun c => this (.inl c), fun c => this (.inr c)⟩

/-- **C57** violated: a record whose name is in the file already cannot be written, whatever it holds. -/
theorem C57_clash_violation (h : H5Cfg) (fs : FSys) (p : PyStr) (rs : Records) (ft : PyStr) (comp : Option PyStr)
    (f : H5) (hf : fs.at p = some (.h5 f)) (n : PyStr) (hn : n ∈ rs.keys) (hm : n ∈ f.groups.keys) :
    (siteWrite h fs p (.records rs) ft comp).1 ≠ .ok () := by
  intro hw
  obtain ⟨_, _, _, h1, _⟩ := C57_site_added h fs (siteWrite h fs p (.records rs) ft comp).2 p rs ft comp f hf
    (Prod.ext hw rfl)
  exact (h1 n hn).1 hm

theorem writeRecords_append {h : H5Cfg} {comp : Option PyStr} {fmt : Format} {f f' : H5} {rs rs' : Records}
    (hw : writeRecords h comp fmt f rs = (.ok (), f')) :
    writeRecords h comp fmt f (rs ++ rs') = writeRecords h comp fmt f' rs' := by
  induction rs generalizing f with
  | nil => cases hw; rfl
  | cons p rs ih =>
    obtain ⟨n, r⟩ := p
    rw [writeRecords] at hw
    rw [List.cons_append, writeRecords]
    split at hw
    · cases hw
    · rename_i h1
      rw [if_neg h1]
      split at hw
      · cases hw
      · rename_i h2
        rw [if_neg h2]
        split at hw
        · cases hw
        · exact ih hw

/-- **C57** violated: writing records to a new file and then others of the same format to the same file
leaves the file that writing both at once leaves. -/
theorem C57_append_violation (h : H5Cfg) (fs fs' : FSys) (p : PyStr) (rs rs' : Records) (v : Version) (t : FType)
    (comp : Option PyStr) (hv : FirstOfVersion v rs) (hv' : FirstOfVersion v rs') (hb : FirstOfVersion v (rs ++ rs'))
    (hw : siteWrite h fs p (.records rs) t.name comp = (.ok (), fs'))
    (hok : (siteWrite h fs' p (.records rs') t.name comp).1 = .ok ()) :
    (siteWrite h fs p (.records (rs ++ rs')) t.name comp).1 = .ok () ∧
    (siteWrite h fs p (.records (rs ++ rs')) t.name comp).2.at p =
      (siteWrite h fs' p (.records rs') t.name comp).2.at p := by
  obtain ⟨fmt, rs1, hc, hw⟩ := siteWrite_ok hw
  obtain ⟨fmt', rs2, hc', hw'⟩ := siteWrite_ok (fs' := (siteWrite h fs' p (.records rs') t.name comp).2)
    (Prod.ext hok rfl)
  obtain ⟨f, f1, ho, hw1, rfl⟩ := writing_ok hw
  obtain ⟨g, f2, ho', hw2, he⟩ := writing_ok hw'
  obtain ⟨t1, v1, ht, h2, rfl, rfl, ⟨s, hs, hsv⟩, h5⟩ := siteWriteCheck_ok hc
  obtain ⟨t2, v2, ht', h2', rfl, rfl, ⟨s', hs', hsv'⟩, h5'⟩ := siteWriteCheck_ok hc'
  cases ftype_name_inj h2
  cases ftype_name_inj h2'
  obtain ⟨x, hx, hxv⟩ := siteDataHash_of hv
  obtain ⟨x', hx', hxv'⟩ := siteDataHash_of hv'
  rw [hs] at hx; cases hx
  rw [hs'] at hx'; cases hx'
  rw [hsv] at hxv; cases hxv
  rw [hsv'] at hxv'; cases hxv'
  have hg : g = f1 := by
    unfold FSys.openA at ho'
    rw [at_put] at ho'
    cases ho'; rfl
  subst hg
  have hcb : siteWriteCheck (.records (rs1 ++ rs2)) t.name = .ok (formatOf v t, rs1 ++ rs2) :=
    siteWriteCheck_of ht hb fun n r hm => by
      rcases List.mem_append.1 hm with hm | hm
      · exact h5 n r hm
      · exact h5' n r hm
  have hwb : siteWrite h fs p (.records (rs1 ++ rs2)) t.name comp = (.ok (), fs.put p (.h5 f2)) := by
    unfold siteWrite
    rw [hcb]
    simp only
    rw [writing_fst ho, writeRecords_append hw1, hw2]
  rw [hwb, he]
  refine ⟨rfl, ?_⟩
  rw [at_put, at_put]

/-! ## Concrete cases -/

/-- A record of a name. -/
def named (n : PyStr) (r : Rec) : Data := .records [(n, r)]

/-- Two writes to the same file, and the names that a reader finds then. -/
def writeTwice (d d' : Data) (ft : PyStr) : Except Err Unit × Except Err Unit × Except Err (List PyStr) :=
  let w := siteWrite sampleH5 noFiles (py! "f") d ft none
  let w' := siteWrite sampleH5 w.2 (py! "f") d' ft none
  (w.1, w'.1, (siteRead w'.2 (py! "f") ft).map (·.names))

/-- **C57** violated: a file written twice has the records of both writes; with records of the same name
the second write raises `ValueError`. -/
theorem C57_twice_violation :
    writeTwice (named (py! "1") (sampleFileRecord .v07 .bfiq)) (named (py! "2") (sampleFileRecord .v07 .bfiq))
      (py! "bfiq") = (.ok (), .ok (), .ok [py! "1", py! "2"]) ∧
    writeTwice (named (py! "1") (sampleFileRecord .v07 .bfiq)) (named (py! "1") (sampleFileRecord .v07 .bfiq))
      (py! "bfiq") = (.ok (), .error .valueError, .ok [py! "1"]) := by
  constructor <;> decide +kernel

/-- A write to a new file, and the names in the file then, also if the write fails. -/
def leftBehind (w : Except Err Unit × FSys) : Except Err Unit × Option (List PyStr) :=
  (w.1, match w.2.at (py! "f") with
    | some (.h5 f) => some f.keys
    | _ => none)

/-- The sample with a text that is not ASCII. -/
def accented : Rec := (sampleFileRecord .v06 .rawacf).set (py! "experiment_comment") (.py .str (.str ['é']))

/-- **C57** violated: a failing write leaves a file.  A text of the second record that is not ASCII
leaves the first record and a part of the second; a compression that h5py does not know leaves a record
with some attributes or a file with some fields. -/
theorem C57_partial_violation :
    leftBehind (siteWrite sampleH5 noFiles (py! "f")
      (.records [(py! "1", sampleFileRecord .v06 .rawacf), (py! "2", accented)]) (py! "rawacf") none) =
      (.error .valueError, some [py! "1", py! "2"]) ∧
    leftBehind (siteWrite sampleH5 noFiles (py! "f") (named (py! "1") (sampleFileRecord .v06 .rawacf)) (py! "rawacf")
      (some (py! "zlib"))) = (.error .valueError, some [py! "1"]) ∧
    leftBehind (arrayWrite sampleH5 noFiles (py! "f") (.arrays (sampleFileArrays .v06 .rawacf)) (py! "rawacf")
      arrayCompression) = (.error .valueError, some []) := by
  refine ⟨?_, ?_, ?_⟩ <;> decide +kernel

example : (siteWrite sampleH5 noFiles (py! "f") (named (py! "1") (sampleFileRecord .v07 .bfiq)) (py! "bfiq") none).1 =
    .ok () := by decide +kernel

/-! ## Arrays -/

/-- **C57** (part): whatever happens, a write of arrays to an existing file leaves its groups and datasets
and changes only the attributes that are fields of the arrays. -/
theorem C57_array_kept (h : H5Cfg) (fs : FSys) (p : PyStr) (r : Rec) (ft : PyStr) (comp : Option PyStr) (f : H5)
    (hf : fs.at p = some (.h5 f)) :
    ∃ f', (arrayWrite h fs p (.arrays r) ft comp).2.at p = some (.h5 f') ∧ f'.groups = f.groups ∧
      (∀ k d, f.root.dsets.get? k = some d → f'.root.dsets.get? k = some d) ∧
      ∀ k, k ∉ r.keys → f'.root.attrs.get? k = f.root.attrs.get? k := by
  unfold arrayWrite
  cases hc : arrayWriteCheck (.arrays r) ft with
  | error e => exact ⟨f, hf, rfl, fun _ _ => id, fun _ _ => rfl⟩
  | ok x =>
    obtain ⟨fmt, r'⟩ := x
    obtain ⟨t, v, _, _, _, rfl, _⟩ := arrayWriteCheck_ok hc
    simp only
    rw [writing_fst (f := f) (by unfold FSys.openA; rw [hf])]
    obtain ⟨⟨ds, h1, _⟩, h2⟩ := writeFields_kept h comp fmt.arraySingleTypes f.groups.keys f.root r'
    refine ⟨_, at_put .., rfl, fun k d hd => ?_, fun k hk => h2 k fun c => hk c.1⟩
    show Dict.get? (writeFields h comp fmt.arraySingleTypes f.groups.keys f.root r').2.dsets k = some d
    rw [h1]
    exact get?_append_left hd

/-- **C57** violated: no arrays of a format can be written to an existing file with a field of the same
name, so a file of arrays cannot be replaced by one of the same format. -/
theorem C57_array_clash_violation (h : H5Cfg) (fs : FSys) (p : PyStr) (r : Rec) (v : Version) (t : FType)
    (comp : Option PyStr) (f : H5) (hf : fs.at p = some (.h5 f)) (hv : OfVersion v r) (hn : r.NodupKeys)
    (k : PyStr) (hk : k ∈ r.keys) (ha : ¬ Listed (formatOf v t).arraySingleTypes k) (hm : k ∈ f.root.dsets.keys) :
    (arrayWrite h fs p (.arrays r) t.name comp).1 ≠ .ok () := by
  intro hok
  obtain ⟨fmt, r1, hc, hw⟩ := arrayWrite_ok (fs' := (arrayWrite h fs p (.arrays r) t.name comp).2)
    (Prod.ext hok rfl)
  obtain ⟨t1, v1, ht, h2, rfl, rfl, ⟨s, hs, hsv⟩, h5⟩ := arrayWriteCheck_ok hc
  cases ftype_name_inj h2
  obtain ⟨x, hx, hxv⟩ := arrayDataHash_of hv
  rw [hs] at hx; cases hx
  rw [hsv] at hxv; cases hxv
  obtain ⟨g, f2, ho, hw, he⟩ := writing_ok hw
  have hg : g = f := by
    unfold FSys.openA at ho
    rw [hf] at ho
    cases ho; rfl
  subst hg
  unfold writeArrays at hw
  simp only [Prod.mk.injEq] at hw
  obtain ⟨val, hval⟩ := Dict.mem_keys_iff.1 hk
  have w := writeFields_written (g' := (writeFields h comp (formatOf v t).arraySingleTypes g.groups.keys g.root r1).2)
    hn (Prod.ext hw.1 rfl)
  obtain ⟨_, _, _, _, hno⟩ := w.dset k val (Dict.mem_of_get? hval) fun c => ha (listed_iff.2 c)
  exact hno hm

/-- Two writes of arrays to the same file. -/
example : (arrayWrite sampleH5
      (arrayWrite sampleH5 noFiles (py! "f") (.arrays (sampleFileArrays .v06 .rawacf)) (py! "rawacf") none).2 (py! "f")
      (.arrays (sampleFileArrays .v06 .rawacf)) (py! "rawacf") none).1 = .error .valueError := by
  decide +kernel

end Verif.Bor

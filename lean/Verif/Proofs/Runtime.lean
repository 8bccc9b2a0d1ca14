import Verif.Proofs.Flags
import Verif.Model.ExampleMain
import Verif.Proofs.Builder

/-! No function changes the description of the runtime (the number of CPUs). -/

namespace Verif
variable {F : Type}

attribute [grind =] Heap.setTab_rt Heap.setHdr_rt Heap.setArr_rt Heap.newArr_rt Heap.newTab_rt Heap.newHdr_rt Heap.newMsk_rt
  Heap.append_rt hdrAdd_rt hdrAddEach_rt hdrRemove_rt

@[grind =] theorem setMsk_rt (h : Heap F) (i t) : (h.setMsk i t).rt = h.rt := rfl

@[grind =] theorem hdrCopy_rt (h : Heap F) (o) : (hdrCopy h o).2.rt = h.rt := by unfold hdrCopy; grind
@[grind =] theorem hdrAnd_rt (h : Heap F) (o l) : (hdrAnd h o l).2.rt = h.rt := by
  have H : ∀ (i : Nat) (l : List (Option Nat)) (h : Heap F),
      (l.foldl (fun h o' => h.setHdr i (sinsertAll (h.hdr i) (hdrList h o'))) h).rt = h.rt := by
    intro i l
    induction l with
    | nil => intro h; rfl
    | cons a l ih => intro h; rw [List.foldl_cons, ih]; rfl
  cases o with
  | none => exact H _ l _
  | some i => exact H i l h
@[grind =] theorem kindHeader_rt (h : Heap F) (t : Nat) (k : Kind) : (kindHeader h t k).2.rt = h.rt := by unfold kindHeader; grind
@[grind =] theorem newRawData_rt (h : Heap F) : (newRawData h).2.rt = h.rt := rfl
@[grind =] theorem transferCore_rt (r s : Raw) (h : Heap F) : (r.transferCore s h).2.rt = h.rt := by unfold Raw.transferCore; grind
@[grind =] theorem reallocateMaps_rt (r : Raw) (h : Heap F) : (r.reallocateMaps h).2.rt = h.rt := by unfold Raw.reallocateMaps; grind
@[grind =] theorem own_rt (r : Raw) (h : Heap F) : (r.own h).2.rt = h.rt := by unfold Raw.own; grind
@[grind =] theorem transferFrom_rt (r s : Raw) (h : Heap F) : (r.transferFrom s h).2.rt = h.rt := by unfold Raw.transferFrom; grind
theorem mapCols_rt {f : Key → Slice → Heap F → Except Abort (Slice × Heap F)} (hf : ∀ k s h s' h', f k s h = .ok (s', h') → h'.rt = h.rt)
    {t : Table} : ∀ {h : Heap F} {t' h'}, mapCols f t h = .ok (t', h') → h'.rt = h.rt := by
  induction t with
  | nil => intro h t' h' e; cases e; rfl
  | cons p t ih => intro h t' h' e; unfold mapCols at e; grind
theorem mapColsT_rt {f : Key → Slice → Heap F → Slice × Heap F} (hf : ∀ k s h, (f k s h).2.rt = h.rt)
    (t : Table) : ∀ (h : Heap F), (mapColsT f t h).2.rt = h.rt := by
  induction t with
  | nil => intro h; rfl
  | cons p t ih => intro h; unfold mapColsT; grind
@[grind =] theorem unshareCol_rt (a b k s) (h : Heap F) : (unshareCol a b k s h).2.rt = h.rt := by unfold unshareCol; grind
@[grind =] theorem unshare_rt (r : Raw) (cols : List GoStr) (h : Heap F) : (r.unshare cols h).2.rt = h.rt := by
  unfold Raw.unshare
  have := @mapColsT_rt F
  grind
@[grind →] theorem rename_rt {r r' : Raw} {a b} {h h' : Heap F} (e : r.rename a b h = .ok (r', h')) : h'.rt = h.rt := by
  have ho := own_rt r h
  unfold Raw.rename at e
  generalize r.own h = p at e ho
  obtain ⟨d, h1⟩ := p
  simp only at e ho
  cases hk : renameKind (h1.tab d.tab) a with
  | none => rw [hk] at e; cases e
  | some k =>
    rw [hk] at e
    simp only at e
    cases hg : AMap.get (h1.tab d.tab) (k, a) with
    | none => rw [hg] at e; cases e
    | some s =>
      rw [hg] at e
      simp only at e
      split at e
      all_goals
        split at e
        all_goals cases e; simp [hdrAdd_rt, hdrRemove_rt, ho]
@[grind =] theorem allocLoop_rt [GoFloat F] (k n t cols) (h : Heap F) : (allocLoop k n t cols h).rt = h.rt := by
  unfold allocLoop
  induction cols generalizing h with
  | nil => rfl
  | cons c cols ih => rw [List.foldl_cons, ih]; rfl
@[grind =] theorem alloc_rt [GoFloat F] (r : Raw) (k cols) (h : Heap F) : (r.alloc k cols h).2.rt = h.rt := by unfold Raw.alloc; grind
@[grind =] theorem mergeRawDataColumns_rt (l : List Raw) (h : Heap F) : (mergeRawDataColumns l h).2.rt = h.rt := by
  have H : ∀ (l : List Raw) (p : Raw × Heap F), (l.foldl (fun (r, h) e =>
    let (r, h) := r.transferFrom e h
    ({ r with enc := e.enc, maxCPU := e.maxCPU }, h)) p).2.rt = p.2.rt := by
    intro l
    induction l with
    | nil => intro p; rfl
    | cons a l ih => intro p; rw [List.foldl_cons, ih]; exact transferFrom_rt p.1 a p.2
  exact H l (newRawData h)
@[grind =] theorem markAsString_rt (r : Raw) (c) (h : Heap F) : (r.markAsString c h).2.rt = h.rt := by unfold Raw.markAsString; grind
@[grind =] theorem setCol_rt (r : Raw) (k c s) (h : Heap F) : (r.setCol k c s h).rt = h.rt := rfl
@[grind =] theorem add_rt [GoFloat F] (r : Raw) (k c l) (h : Heap F) : (r.add k c l h).rt = h.rt := by unfold Raw.add; grind
@[grind =] theorem emptyDataFrame_rt (h : Heap F) (n m) : (emptyDataFrame h n m).2.rt = h.rt := by unfold emptyDataFrame; grind
@[grind →] theorem copyCol_rt {df k s} {h : Heap F} {s' h'} (e : copyCol df k s h = .ok (s', h')) : h'.rt = h.rt := by unfold copyCol at e; grind
@[grind →] theorem copy_rt {df : DF} {h : Heap F} {d h'} (e : df.copy h = .ok (d, h')) : h'.rt = h.rt := by
  unfold DF.copy at e
  have := @mapCols_rt F
  grind
@[grind →] theorem toDataFrame_rt {r : Raw} {h : Heap F} {d h'} (e : r.toDataFrame h = .ok (d, h')) : h'.rt = h.rt := by
  unfold Raw.toDataFrame at e; grind
@[grind →] theorem vecDenseCopy_rt {df : DF} {c} {h : Heap F} {d h'} (e : df.vecDenseCopy h c = .ok (d, h')) : h'.rt = h.rt := by
  unfold DF.vecDenseCopy at e; grind
@[grind →] theorem vecDense_rt {df : DF} {c} {h : Heap F} {d h'} (e : df.vecDense h c = .ok (d, h')) : h'.rt = h.rt := by
  unfold DF.vecDense at e; grind
@[grind =] theorem appendMask_rt (h : Heap F) (s n) : (h.appendMask s n).2.rt = h.rt := by unfold Heap.appendMask; grind
@[grind →] theorem indexView_rt {df : DF} {l} {h : Heap F} {d h'} (e : df.indexView l h = .ok (d, h')) : h'.rt = h.rt := by
  unfold DF.indexView at e; grind
@[grind →] theorem resliceCol_rt {a b k s} {h : Heap F} {s' h'} (e : resliceCol a b k s h = .ok (s', h')) : h'.rt = h.rt := by
  unfold resliceCol at e; grind
@[grind →] theorem cut_rt {df : DF} {a b} {h : Heap F} {d h'} (e : df.cut a b h = .ok (d, h')) : h'.rt = h.rt := by
  unfold DF.cut at e
  have := @mapCols_rt F
  grind
@[grind →] theorem sliceView_rt {df : DF} {a b} {h : Heap F} {d h'} (e : df.sliceView a b h = .ok (d, h')) : h'.rt = h.rt := by
  unfold DF.sliceView at e; grind
@[grind =] theorem columnView_rt (df : DF) (l) (h : Heap F) : (df.columnView l h).2.rt = h.rt := by unfold DF.columnView; grind
@[grind →] theorem shuffleView_rt {df : DF} {l} {h : Heap F} {d h'} (e : df.shuffleView l h = .ok (d, h')) : h'.rt = h.rt := by
  unfold DF.shuffleView at e; grind
theorem splitLoop_rt {df : DF} {b m} : ∀ {i} {h : Heap F} {d h'}, df.splitLoop b i m h = .ok (d, h') → h'.rt = h.rt := by
  induction m with
  | zero => intro i h d h' e; unfold DF.splitLoop at e; grind
  | succ m ih => intro i h d h' e; unfold DF.splitLoop at e; grind
grind_pattern splitLoop_rt => df.splitLoop b i m h, Except.ok (ε := Abort) (d, h')
@[grind →] theorem splitView_rt {df : DF} {b} {h : Heap F} {d h'} (e : df.splitView b h = .ok (d, h')) : h'.rt = h.rt := by
  unfold DF.splitView at e; grind
@[grind →] theorem splitNView_rt {df : DF} {b} {h : Heap F} {d h'} (e : df.splitNView b h = .ok (d, h')) : h'.rt = h.rt := by
  unfold DF.splitNView at e; grind
@[grind →] theorem splitTrainTestViews_rt [GoFloat F] {df : DF} {b} {h : Heap F} {d h'} (e : df.splitTrainTestViews b h = .ok (d, h')) : h'.rt = h.rt := by
  unfold DF.splitTrainTestViews at e; grind

/-! ### Queues -/

theorem runQueue_const {σ R : Type} (g : σ → R) {keys order : List GoStr} {n : Int} {job : GoStr → σ → Except Abort σ}
    (hj : ∀ c s s', job c s = .ok s' → g s' = g s) {s s' : σ} (e : runQueue keys order n job s = .ok s') : g s' = g s := by
  have H : ∀ (l : List GoStr) (s s' : σ), l.foldlM (fun s k => job k s) s = .ok s' → g s' = g s := by
    intro l
    induction l with
    | nil => intro s s' e; cases e; rfl
    | cons a l ih =>
      intro s s' e
      rw [List.foldlM_cons] at e
      cases ha : job a s with
      | error x => rw [ha] at e; cases e
      | ok s1 => rw [ha] at e; exact (ih s1 s' e).trans (hj a s s1 ha)
  unfold runQueue at e
  split at e
  · cases e; rfl
  · split at e
    · cases e
    · exact H _ _ _ e

/-! ### Reading -/

@[grind =] theorem put_rt (w : CsvWorker) (k c l) (h : Heap F) : (w.put k c l h).2.rt = h.rt := rfl
@[grind →] theorem csvColumn_rt [GoFloat F] {pf : GoStr → Option F} {spec rec hdr c} {w : CsvWorker} {h : Heap F} {w' h'}
    (e : csvColumn pf spec rec hdr c w h = .ok (w', h')) : h'.rt = h.rt := by
  unfold csvColumn at e; grind
@[grind =] theorem csvWorkers_rt (n m) (h : Heap F) : (csvWorkers n m h).2.rt = h.rt := by
  induction m generalizing h with
  | zero => rfl
  | succ m ih => unfold csvWorkers; grind
theorem csvJob_rt [GoFloat F] {pf : GoStr → Option F} {spec rec hdr who c} {s s' : List CsvWorker × Heap F}
    (e : csvJob pf spec rec hdr who c s = .ok s') : s'.2.rt = s.2.rt := by
  unfold csvJob at e; grind
@[grind →] theorem fromCSV_rt [GoFloat F] {pf : GoStr → Option F} {jobs who inp spec} {h : Heap F} {r h'}
    (e : fromCSV pf jobs who inp spec h = .ok (r, h')) : h'.rt = h.rt := by
  unfold fromCSV at e
  cases ht : readTable spec inp with
  | none => rw [ht] at e; cases e; rfl
  | some p =>
    obtain ⟨hdr, rec⟩ := p
    rw [ht] at e
    simp only at e
    split at e
    · cases e
    · rename_i ws h1 hq
      have := runQueue_const (fun s : List CsvWorker × Heap F => s.2.rt) (fun c s s' e => csvJob_rt e) hq
      cases e
      rw [mergeRawDataColumns_rt]
      exact this.trans (csvWorkers_rt _ _ _)
@[grind →] theorem fromCSVFile_rt [GoFloat F] {pf : GoStr → Option F} {jobs who files path spec} {h : Heap F} {r h'}
    (e : fromCSVFile pf jobs who files path spec h = .ok (r, h')) : h'.rt = h.rt := by
  unfold fromCSVFile at e; grind
theorem exampleRead_rt [GoFloat F] {pf : GoStr → Option F} {sch disk cpu path exclude comma} {h : Heap F} {r h'}
    (e : exampleRead pf sch disk cpu path exclude comma h = .ok (r, h')) : h'.rt = h.rt := by
  unfold exampleRead at e; grind

/-! ### Writing -/

@[grind =] theorem csvHeader_rt (df : DF) (o) (h : Heap F) : (df.csvHeader o h).2.rt = h.rt := by unfold DF.csvHeader; grind
@[grind →] theorem to1CSV_rt [GoFloat F] {ff : F → GoStr} {o} {df : DF} {w opt} {h : Heap F} {r h'}
    (e : df.to1CSV ff o w opt h = .ok (r, h')) : h'.rt = h.rt := by
  unfold DF.to1CSV at e; grind
theorem csvParts_rt [GoFloat F] {ff : F → GoStr} {o dfs opt} {ws} : ∀ {i} {h : Heap F} {r h'},
    csvParts ff o dfs opt i ws h = .ok (r, h') → h'.rt = h.rt := by
  induction ws with
  | nil => intro i h r h' e; cases e; rfl
  | cons w ws ih => intro i h r h' e; unfold csvParts at e; grind
@[grind →] theorem toCSVs_rt [GoFloat F] {ff : F → GoStr} {o} {df : DF} {ws opt} {h : Heap F} {r h'}
    (e : df.toCSVs ff o ws opt h = .ok (r, h')) : h'.rt = h.rt := by
  unfold DF.toCSVs at e
  have := @csvParts_rt F
  grind
@[grind →] theorem toCSVFiles_rt [GoFloat F] {ff : F → GoStr} {o} {df : DF} {cr opt paths} {h : Heap F} {r h'}
    (e : df.toCSVFiles ff o cr opt paths h = .ok (r, h')) : h'.rt = h.rt := by
  unfold DF.toCSVFiles at e; grind
@[grind →] theorem toCSVDir_rt [GoFloat F] {ff : F → GoStr} {o} {df : DF} {cr opt pre} {h : Heap F} {r h'}
    (e : df.toCSVDir ff o cr opt pre h = .ok (r, h')) : h'.rt = h.rt := by
  unfold DF.toCSVDir at e; grind
@[grind →] theorem exampleWrite_rt [GoFloat F] {ff : F → GoStr} {sch wr comma} {df : DF} {h : Heap F} {r h'}
    (e : exampleWrite ff sch wr comma df h = .ok (r, h')) : h'.rt = h.rt := by
  unfold exampleWrite at e; grind

/-! ### Training and running -/

@[grind =] theorem hdrExcept_rt (h : Heap F) (o cs) : (hdrExcept h o cs).2.rt = h.rt := hdrRemove_rt h o cs
@[grind =] theorem header_rt (h : Heap F) (t) : (header h t).2.rt = h.rt := by unfold header; grind
@[grind →] theorem write_rt {h : Heap F} {s i v h'} (e : h.write s i v = .ok h') : h'.rt = h.rt := by
  unfold Heap.write at e; grind
theorem hashColumn_rt {a b : Slice} {l} : ∀ {h : Heap F} {h'}, hashColumn a b l h = .ok h' → h'.rt = h.rt := by
  induction l with
  | nil => intro h h' e; cases e; rfl
  | cons i l ih => intro h h' e; unfold hashColumn at e; grind
@[grind →] theorem hashStringsView_rt [GoFloat F] {df : DF} {cols order} {h : Heap F} {d h'}
    (e : df.hashStringsView cols order h = .ok (d, h')) : h'.rt = h.rt := by
  unfold DF.hashStringsView at e
  split at e
  · cases e; rfl
  · simp only at e
    split at e
    · cases e
    · rename_i h1 hq
      have := runQueue_const (fun s : Heap F => s.rt) (fun c s s' e => hashColumn_rt e) hq
      grind
@[grind →] theorem hashTransform_rt [GoFloat F] {enc : HashEncoder} {df : DF} {order} {h : Heap F} {d h'}
    (e : enc.transformView order df h = .ok (d, h')) : h'.rt = h.rt := hashStringsView_rt e
@[grind →] theorem setTrue_rt {df : DF} {n i} {h : Heap F} {h'} (e : df.setTrue n i h = .ok h') : h'.rt = h.rt := by
  unfold DF.setTrue at e; grind
theorem oneHotLoop_rt {enc r c src} {l} : ∀ {s s' : Heap F × Bool}, oneHotLoop enc r c src l s = .ok s' → s'.1.rt = s.1.rt := by
  induction l with
  | nil => intro s s' e; cases e; rfl
  | cons i l ih => intro s s' e; unfold oneHotLoop at e; grind
theorem oneHotJob_rt {enc r c} {s s' : Heap F × Bool} (e : oneHotJob enc r c s = .ok s') : s'.1.rt = s.1.rt := by
  unfold oneHotJob at e
  have := @oneHotLoop_rt F
  grind
@[grind =] theorem drop_rt (r : Raw) (cols) (h : Heap F) : (r.drop cols h).rt = h.rt := by
  unfold Raw.drop
  induction cols generalizing h with
  | nil => rfl
  | cons c cols ih => rw [List.foldl_cons, ih]; simp [hdrRemove_rt]
@[grind →] theorem oneHotTransform_rt [GoFloat F] {enc : OneHotEncoder} {order} {df : DF} {h : Heap F} {d h'}
    (e : enc.transformView order df h = .ok (d, h')) : h'.rt = h.rt := by
  unfold OneHotEncoder.transformView at e
  simp only at e
  split at e
  · cases e; rfl
  · have hw : ((df.view.withRaw (df.view.toRaw.alloc .bool enc.newCols h)).2).rt = h.rt := alloc_rt _ _ _ _
    generalize df.view.withRaw (df.view.toRaw.alloc .bool enc.newCols h) = p at e hw
    obtain ⟨r, h1⟩ := p
    simp only at e hw
    split at e
    · cases e
    all_goals
      rename_i h2 hq
      have := runQueue_const (fun s : Heap F × Bool => s.1.rt) (fun c s s' e => oneHotJob_rt e) hq
      grind
theorem updFloats_rt [GoFloat F] {f : F → Option F} {s l} : ∀ {h : Heap F} {h'}, updFloats f s l h = .ok h' → h'.rt = h.rt := by
  induction l with
  | nil => intro h h' e; cases e; rfl
  | cons i l ih => intro h h' e; unfold updFloats at e; grind
@[grind →] theorem updFloatCol_rt [GoFloat F] {df : DF} {f : F → Option F} {c} {h : Heap F} {h'} (e : df.updFloatCol c f h = .ok h') :
    h'.rt = h.rt := by
  unfold DF.updFloatCol at e
  have := @updFloats_rt F
  grind
theorem imputeLoop_rt [GoFloat F] {df : DF} {m : AMap GoStr F} : ∀ {h : Heap F} {h'}, imputeLoop df m h = .ok h' → h'.rt = h.rt := by
  induction m with
  | nil => intro h h' e; cases e; rfl
  | cons i l ih => intro h h' e; unfold imputeLoop at e; grind
@[grind →] theorem imputer_rt [GoFloat F] {im : FloatImputer F} {df : DF} {h : Heap F} {h'} (e : im.transformInplace df h = .ok h') :
    h'.rt = h.rt := imputeLoop_rt e
@[grind →] theorem scaler_rt [GoFloat F] {sc : Scaler F} {df : DF} {o} {h : Heap F} {h'} (e : sc.transformInplace df o h = .ok h') :
    h'.rt = h.rt := by
  unfold Scaler.transformInplace at e
  have H : ∀ {c : Prop} [Decidable c], (if c then Except.ok h else runQueue sc.transformedColumns o df.maxCPU
      (fun c h => df.updFloatCol c (fun x => some (scaleVal sc c x)) h) h) = .ok h' → h'.rt = h.rt := by
    intro c _ e
    split at e
    · cases e; rfl
    · exact runQueue_const (fun s : Heap F => s.rt) (fun c s s' e => updFloatCol_rt e) e
  exact H e
@[grind →] theorem inverse_rt [GoFloat F] {sc : Scaler F} {df : DF} {o} {h : Heap F} {h'} (e : sc.inverseTransformInplace df o h = .ok h') :
    h'.rt = h.rt := scaler_rt e
@[grind =] theorem detachedView_rt (df : DF) (cols) (h : Heap F) : (df.detachedView cols h).2.rt = h.rt := unshare_rt _ _ _
@[grind →] theorem fitFloats_rt [GoFloat F] {p p' : AutoPreprocessor F} {sch df} {h h' : Heap F} (e : p.fitFloats sch df h = .ok (p', h')) :
    h'.rt = h.rt := by
  unfold AutoPreprocessor.fitFloats at e; grind
@[grind →] theorem fitHash_rt [GoFloat F] {p : AutoPreprocessor F} {sch df r} {h h' : Heap F} (e : p.fitHash sch df h = .ok (r, h')) :
    h'.rt = h.rt := by
  unfold AutoPreprocessor.fitHash at e; grind
@[grind →] theorem fitOneHot_rt {p p' : AutoPreprocessor F} {sch df l} {h h' : Heap F} (e : p.fitOneHot sch df l h = .ok (p', h')) :
    h'.rt = h.rt := by
  unfold AutoPreprocessor.fitOneHot at e; grind
@[grind →] theorem runFloats_rt [GoFloat F] {p : AutoPreprocessor F} {sch df df' l} {h h' : Heap F} (e : p.runFloats sch l df h = .ok (df', h')) :
    h'.rt = h.rt := by
  unfold AutoPreprocessor.runFloats at e
  simp only at e
  repeat' (split at e)
  all_goals first | contradiction | grind
@[grind →] theorem fitWith_rt [GoFloat F] {p : AutoPreprocessor F} {sch df b r} {h h' : Heap F} (e : p.fitWith sch df b h = .ok (r, h')) :
    h'.rt = h.rt := by
  unfold AutoPreprocessor.fitWith at e
  simp only at e
  repeat' (split at e)
  all_goals first | contradiction | grind
@[grind →] theorem fitTransform_rt [GoFloat F] {p : AutoPreprocessor F} {sch df r} {h h' : Heap F} (e : p.fitTransform sch df h = .ok (r, h')) :
    h'.rt = h.rt := by
  unfold AutoPreprocessor.fitTransform at e; grind
@[grind =] theorem detach_rt (p : AutoPreprocessor F) (sch df) (h : Heap F) : (p.detach sch df h).2.rt = h.rt := by
  unfold AutoPreprocessor.detach; grind
@[grind →] theorem imputeIf_rt [GoFloat F] {im : Option (FloatImputer F)} {df} {h h' : Heap F} (e : imputeIf im df h = .ok h') : h'.rt = h.rt := by
  unfold imputeIf at e; grind
@[grind →] theorem scaleIf_rt [GoFloat F] {im : Option (Scaler F)} {sch df} {h h' : Heap F} (e : scaleIf im sch df h = .ok h') : h'.rt = h.rt := by
  unfold scaleIf at e; grind
@[grind →] theorem hashIf_rt [GoFloat F] {im : Option HashEncoder} {sch df d} {h h' : Heap F} (e : hashIf im sch df h = .ok (d, h')) : h'.rt = h.rt := by
  unfold hashIf at e; grind
@[grind →] theorem autoTransform_rt [GoFloat F] {p : AutoPreprocessor F} {sch df r} {h h' : Heap F} (e : p.transformView sch df h = .ok (r, h')) :
    h'.rt = h.rt := by
  unfold AutoPreprocessor.transformView at e
  simp only at e
  repeat' (split at e)
  all_goals first | contradiction | grind
theorem overwriteLoop_rt {s : Slice} {l} : ∀ {vs} {h h' : Heap F}, overwriteLoop s l vs h = .ok h' → h'.rt = h.rt := by
  induction l with
  | nil => intro vs h h' e; cases e; rfl
  | cons i l ih =>
    intro vs h h' e
    cases vs with
    | nil => cases e
    | cons v vs => unfold overwriteLoop at e; grind
@[grind =] theorem allocStrings_rt [GoFloat F] (r : Raw) (cols) (h : Heap F) : (r.allocStrings cols h).2.rt = h.rt := by
  unfold Raw.allocStrings; grind
@[grind =] theorem withRaw_rt (df : DF) (p : Raw × Heap F) : (df.withRaw p).2 = p.2 := rfl
@[grind →] theorem overwrite_rt [GoFloat F] {df d : DF} {k c l b} {h h' : Heap F} (e : df.overwrite k c l b h = .ok (d, h')) : h'.rt = h.rt := by
  unfold DF.overwrite at e
  have := @overwriteLoop_rt F
  grind
@[grind →] theorem predict_rt [GoFloat F] {reg : LinearRegressor F} {dot df c o d} {h h' : Heap F}
    (e : reg.predict dot df c o h = .ok (d, h')) : h'.rt = h.rt := by
  unfold LinearRegressor.predict at e
  simp only at e
  repeat' (split at e)
  all_goals first | contradiction | grind
@[grind →] theorem fitBatch_rt [GoFloat F] {bl : Blas F} {p b s r} {h h' : Heap F} (e : fitBatch bl p b s h = .ok (r, h')) : h'.rt = h.rt := by
  unfold fitBatch at e; grind
theorem fitBatches_rt [GoFloat F] {bl : Blas F} {p l} : ∀ {s r} {h h' : Heap F}, fitBatches bl p l s h = .ok (r, h') → h'.rt = h.rt := by
  induction l with
  | nil => intro s r h h' e; cases e; rfl
  | cons b l ih => intro s r h h' e; unfold fitBatches at e; grind
@[grind →] theorem fitShuffled_rt {p : LinRegTrainParams F} {perm df d} {h h' : Heap F} (e : fitShuffled p perm df h = .ok (d, h')) : h'.rt = h.rt := by
  unfold fitShuffled at e; grind
@[grind →] theorem fitEpoch_rt [GoFloat F] {bl : Blas F} {p perm df s r} {h h' : Heap F} (e : fitEpoch bl p perm df s h = .ok (r, h')) : h'.rt = h.rt := by
  unfold fitEpoch at e
  have := @fitBatches_rt F
  grind
theorem fitEpochs_rt [GoFloat F] {bl : Blas F} {p sch df l} : ∀ {s r} {h h' : Heap F}, fitEpochs bl p sch df l s h = .ok (r, h') → h'.rt = h.rt := by
  induction l with
  | nil => intro s r h h' e; cases e; rfl
  | cons b l ih => intro s r h h' e; unfold fitEpochs at e; grind
@[grind →] theorem fitTrain_rt [GoFloat F] {bl : Blas F} {sch p sc fs df r} {h h' : Heap F} (e : fitTrain bl sch p sc fs df h = .ok (r, h')) : h'.rt = h.rt := by
  unfold fitTrain at e
  have := @fitEpochs_rt F
  grind
@[grind →] theorem fitPrepare_rt [GoFloat F] {names : List GoStr} {df t d sc} {h h' : Heap F} (e : fitPrepare names df t h = .ok (d, sc, h')) : h'.rt = h.rt := by
  unfold fitPrepare at e; grind
@[grind →] theorem linRegFit_rt [GoFloat F] {bl : Blas F} {sch df t p r} {h h' : Heap F} (e : linRegFit bl sch df t p h = .ok (r, h')) : h'.rt = h.rt := by
  unfold linRegFit at e; grind
@[grind →] theorem experimentTrain_rt [GoFloat F] {bl : Blas F} {sch fl df r} {h h' : Heap F} (e : experimentTrain bl sch fl df h = .ok (r, h')) :
    h'.rt = h.rt := by
  unfold experimentTrain at e; grind
@[grind →] theorem experimentTest_rt [GoFloat F] {j : JsonFloats F} {bl : Blas F} {sch fl t r} {h h' : Heap F}
    (e : experimentTest j bl sch fl t h = .ok (r, h')) : h'.rt = h.rt := by
  unfold experimentTest at e
  repeat' (split at e)
  all_goals first | contradiction | grind
theorem experiment_rt [GoFloat F] {j : JsonFloats F} {bl : Blas F} {sch fl df r} {h h' : Heap F}
    (e : experiment j bl sch fl df h = .ok (r, h')) : h'.rt = h.rt := by
  unfold experiment at e; grind

end Verif

import Verif.Model.Timer

/-!
What the charts of `/repo/scikit-topt/sktopt/tools/timer.py` show: stacked bars (lines 254–363) and pies (lines 448–512).

Simplifications: colours, texts of axes and legends, and the figure itself are not modelled; a chart is the list of its bars or wedges. The
separator is one character. Section names are the keys of a dictionary, hence different, so `name_to_stat[s.name]` is `s`.
`moving_average` is not modelled here (see `updateAll`).
-/
namespace Verif.Timer

open Snapshot (Name)

noncomputable section

/-- One call of `ax.barh(y, width, left=left)` and the section it is drawn for (timer.py lines 321–349). -/
structure Seg where
  owner : Name
  left : ℝ
  width : ℝ

/-- The loop over the children (timer.py lines 333–349): every segment begins where the last one ended. -/
def abut (left : ℝ) : List (Name × ℝ) → List Seg
  | [] => []
  | (n, v) :: l => ⟨n, left, v⟩ :: abut (left + v) l

/-- `children_map[name]` as statistics (timer.py lines 278–282; `s.name.rsplit(sep, 1)[0]` is what is in front of the last separator). -/
def childrenOf (sep : Char) (l : List Stats) (name : Name) : List Stats :=
  l.filter fun c => decide (sep ∈ c.name) && decide (parentName sep c.name = name)

/-- The bar of one top-level section (timer.py lines 308–349). -/
def stackRow (sep : Char) (l : List Stats) (value : Key) (s : Stats) : List Seg :=
  let kids := childrenOf sep l s.name
  let childSum := (kids.map value.of).sum
  let self := max (value.of s - childSum) 0
  ⟨s.name, 0, self⟩ :: abut self (kids.map fun c => (c.name, value.of c))

/-- `plot_bar(stacked_nested=True)` after `stats` has been chosen and sorted (timer.py lines 254–363); one row per top-level section. -/
def stacked (sep : Char) (l : List Stats) (value : Key) : Res (List (Name × List Seg)) :=
  if l.isEmpty then .error .valueError                                                        -- 259–260
  else if ¬ l.any (fun s => decide (sep ∈ s.name)) then .error .valueError                      -- 274–275
  else .ok ((l.filter fun s => decide (sep ∉ s.name)).map fun s => (s.name, stackRow sep l value s))

/-- A wedge of the pie: section, size, text beside it (timer.py lines 467–491). -/
structure Wedge where
  owner : Name
  size : ℝ
  label : Name

/-- A pie chart: its wedges and the total in its title. -/
structure Pie where
  wedges : List Wedge
  total : ℝ

open Classical in
/-- `plot_pie` after `stats` has been chosen and sorted (timer.py lines 448–512). -/
def pie (l : List Stats) (value : Key) (threshold : Option ℝ) : Res Pie :=
  if l.isEmpty then .error .valueError                                                        -- 453–454
  else
    let data := l.map value.of                                                                 -- 467–468
    if data.all (fun v => decide (v = 0)) then .error .valueError                               -- 471–472
    else
      let total := data.sum                                                                    -- 473
      .ok { wedges := l.map fun s =>
              let frac := if total ≠ 0 then value.of s / total else 0                            -- 490
              { owner := s.name, size := value.of s,
                label := if threshold.all (fun t => decide (t ≤ frac)) then s.name else [] }      -- 491
            total := total }

end
end Verif.Timer

import Verif.Model.Draw

/-!
# Drawing of geometries and clusters

utils/misc.py:17-39 `draw_shapely_polygon`, starshaped_hull/cluster_and_starify.py:36-41 `ObstacleCluster.draw` and 483-500
`draw_adm_ker`.
-/

namespace Starworlds

/-- A shapely Polygon: the vertices of its exterior and of its holes. -/
structure PolyG where
  exterior : Shape
  holes : List Shape

/-- A shapely geometry: a Polygon; one with `geoms`, of which only the Polygons are listed, with `none` for anything else;
or a Point or LineString, which has neither `exterior` nor `geoms`. -/
inductive ShGeom where
  | polygon (p : PolyG)
  | multi (parts : List (Option PolyG))
  | thin

/-- `xlim` or `ylim`. -/
abbrev Lim := Option (ℝ × ℝ)

/-- The box of utils/misc.py:30: the two corners. -/
structure Box where
  low : Pt ℝ
  high : Pt ℝ

/-- utils/misc.py:29-32: `pol_plot`; `clip p b` is `p.intersection(b)`. -/
noncomputable def clipPart (clip : PolyG → Box → ShGeom) (xlim ylim : Lim) (p : PolyG) : ShGeom :=
  match xlim, ylim with
  | some x, some y => clip p ⟨(x.1 - 1, y.1 - 1), (x.2 + 1, y.2 + 1)⟩
  | _, _ => .polygon p

/-- utils/misc.py:28-38: the loop over the polygons. -/
noncomputable def drawParts (clip : PolyG → Box → ShGeom) (xlim ylim : Lim) :
    List PolyG → List Handle × Canvas → Except PyErr (List Handle) × Canvas
  | [], h => (.ok h.1, h.2)
  | p :: ps, h =>
    match clipPart clip xlim ylim p with
    | .polygon q => drawParts clip xlim ylim ps (addArtist (.ring q.exterior) h)
    | _ => (.error .attributeError, h.2)

/-- utils/misc.py:17-39 `draw_shapely_polygon`. The limits of the axes are left out. -/
noncomputable def drawShapely (clip : PolyG → Box → ShGeom) (pol : ShGeom) (xlim ylim : Lim) (c : Canvas) : Except PyErr (List Handle) × Canvas :=
  match pol with
  | .polygon p => drawParts clip xlim ylim [p] ([], c)
  | .multi parts => drawParts clip xlim ylim (parts.filterMap id) ([], c)
  | .thin => (.error .attributeError, c)

/-! ## Clusters -/

/-- What a cluster draws: an obstacle or a combination. -/
inductive Target where
  | obs (o : DrawObj) (s : ObState)
  | comb (parts : List Shape) (xr : Pt ℝ) (name : String)

/-- The value of the variable `ax`: None, an axes object, or a list of handles. -/
inductive AxVal where
  | none
  | axes
  | handles (hs : List Handle)

/-- `draw(ax=ax)` with the default options; the returned pair is `line_handles, ax`. A list of handles has no attribute
`add_patch`, and no attribute `plot`; for None there is a new figure. The caches of the obstacle are left out. -/
noncomputable def targetDraw (scalarOk : Bool) (rnd : Shape) (t : Target) (ax : AxVal) (c : Canvas) :
    Except PyErr (List Handle × AxVal) × Canvas :=
  match ax with
  | .handles _ => (.error .attributeError, c)
  | _ =>
    let c := match ax with | .none => [] | _ => c
    match t with
    | .obs o s =>
      let (r, _, c) := drawCall scalarOk rnd o s .global true false c
      (match r with | .ok hs => .ok (hs, .axes) | .error e => .error e, c)
    | .comb parts xr name =>
      let (hs, c) := combInitPlot parts xr name true false c
      (.ok (hs, .axes), c)

/-- starshaped_hull/cluster_and_starify.py:37-41: `ax, _ = o.draw(ax=ax)` for one object after the other; `last` is the
value of `_`, if there is one. -/
noncomputable def drawEach (scalarOk : Bool) (rnd : Shape) : List Target → AxVal → Option AxVal → Canvas →
    Except PyErr (AxVal × AxVal) × Canvas
  | [], ax, some l, c => (.ok (ax, l), c)
  | [], _, none, c => (.error .unboundLocalError, c)
  | t :: ts, ax, _, c =>
    match targetDraw scalarOk rnd t ax c with
    | (.error e, c) => (.error e, c)
    | (.ok (hs, a), c) => drawEach scalarOk rnd ts (.handles hs) (some a) c

/-- starshaped_hull/cluster_and_starify.py:36-41 `ObstacleCluster.draw`; the colour is left out. -/
noncomputable def clusterDraw (scalarOk : Bool) (rnd : Shape) (clusterObstacle : Option Target) (obstacles : List Target) (ax : AxVal)
    (c : Canvas) : Except PyErr (AxVal × AxVal) × Canvas :=
  drawEach scalarOk rnd (clusterObstacle.toList ++ obstacles) ax none c

/-- starshaped_hull/cluster_and_starify.py:11-15: the attribute `cluster_obstacle` of a new cluster. -/
def newClusterObstacle (obstacles : List Target) : Except PyErr (Option Target) :=
  if 1 < obstacles.length then .ok none
  else match obstacles with
    | [] => .error .indexError
    | t :: _ => .ok (some t)

/-! ## draw_adm_ker -/

/-- `admissible_kernel` of a cluster. -/
inductive AdmKernel where
  | missing
  | empty
  | point
  | geom (g : ShGeom)

/-- What `draw_adm_ker` uses of a cluster, apart from its obstacles. -/
structure AdmCluster where
  kernel : AdmKernel
  kernelPoints : Option (List (Pt ℝ))

/-- starshaped_hull/cluster_and_starify.py:484. -/
def AdmCluster.valid (cl : AdmCluster) : Bool :=
  match cl.kernel with
  | .missing => false
  | .empty => false
  | _ => true

/-- starshaped_hull/cluster_and_starify.py:490-493, on the axes of the cluster: the admissible kernel and the kernel points. A
polygon of one or two points is ValueError. The obstacles (line 489) and the two points and limits (494-499) are left out. -/
noncomputable def drawKernels (cl : AdmCluster) (c : Canvas) : Except PyErr Unit × Canvas :=
  match cl.kernel with
  | .geom g =>
    match drawShapely (fun p _ => .polygon p) g none none c with
    | (.error e, c) => (.error e, c)
    | (.ok _, c) =>
      match cl.kernelPoints with
      | none => (.ok (), c)
      | some ps =>
        if ps.length = 1 ∨ ps.length = 2 then (.error .valueError, c)
        else match drawShapely (fun p _ => .polygon p) (.polygon ⟨ps, []⟩) none none c with
          | (.error e, c) => (.error e, c)
          | (.ok _, c) => (.ok (), c)
  | _ => (.ok (), c)

/-- starshaped_hull/cluster_and_starify.py:485 `int(np.sqrt(n)) + 1`. -/
def nCol (n : Nat) : Nat := Nat.sqrt n + 1

/-- starshaped_hull/cluster_and_starify.py:487-499: the clusters from number `i` on; `grid row col` are the artists of the
axes `axs[row, col]`. -/
noncomputable def admLoop (n : Nat) : List AdmCluster → Nat → (Nat → Nat → Canvas) → Except PyErr (Nat → Nat → Canvas)
  | [], _, grid => .ok grid
  | cl :: cls, i, grid =>
    let row := i / n
    let col := i % n
    if row < n ∧ col < n then
      match drawKernels cl (grid row col) with
      | (.error e, _) => .error e
      | (.ok _, c) => admLoop n cls (i + 1) fun r k => if r = row ∧ k = col then c else grid r k
    else .error .indexError

/-- starshaped_hull/cluster_and_starify.py:483-500 `draw_adm_ker`: the panels; `plt.subplots(1, 1)`, for no valid cluster, is a
single axes object and no array (`none`). -/
noncomputable def drawAdmKer (clusters : List AdmCluster) : Except PyErr (Option (Nat × (Nat → Nat → Canvas))) :=
  let valid := clusters.filter AdmCluster.valid
  let n := nCol valid.length
  match admLoop n valid 0 fun _ _ => [] with
  | .error e => .error e
  | .ok grid => .ok (if n = 1 then none else some (n, grid))

end Starworlds

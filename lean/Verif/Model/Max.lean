import Verif.Model.CNum
/-!
# Model of MAXex: NodeSuffix.h, CompositeTex.h, MapsCore.h and the parameter classes

Strings are bytes. The objects of 3ds Max behind `IParamBlock2` and `CompositeTex::Interface` are not in the repository; a parameter block is
a map from (parameter, index) to values, a composite texture a list of layers, with the behaviour their documentation gives.
-/
namespace PreCore.Max

/-! ## INodeSuffixer -/

/-- `INodeSuffixer` (NodeSuffix.h:8-10): the vector of channels and the flags. -/
structure Suffixer where
  chans : List Int
  skin : Bool
  morph : Bool
  normals : Bool
  color : Bool
deriving DecidableEq, Repr

/-- The functions that change it (NodeSuffix.h:14-34). -/
inductive SOp
  | addChannel (id : Int) | addColor | addFullColor | useNormals | useSkin | useMorph
deriving DecidableEq, Repr

/-- Constructor (NodeSuffix.h:13). -/
def Suffixer.new : Suffixer := ⟨[], false, false, false, false⟩

/-- The effect of each of these functions (NodeSuffix.h:14-34). -/
def Suffixer.step (s : Suffixer) : SOp → Suffixer
  | .addChannel id => { s with chans := s.chans ++ [id] }
  | .addColor => if s.color then s else { s with chans := s.chans ++ [0], color := true }
  | .addFullColor => { s with chans := (if s.color then s.chans else s.chans ++ [0]) ++ [-2], color := true }
  | .useNormals => { s with normals := true }
  | .useSkin => { s with skin := true }
  | .useMorph => { s with morph := true }

/-- `std::sort` of integers, as insertion sort. (Part of `std::sort`, NodeSuffix.h:36-73.) -/
def insertInt (x : Int) : List Int → List Int
  | [] => [x]
  | y :: l => if x ≤ y then x :: y :: l else y :: insertInt x l
/-- `std::sort` (called in `Generate`, NodeSuffix.h:36-73). -/
def sortInts : List Int → List Int
  | [] => []
  | x :: l => insertInt x (sortInts l)

/-- `Generate` (NodeSuffix.h:36-73): the text and the suffixer, whose channels are now sorted. -/
def Suffixer.generate (s : Suffixer) (className : Option (List Byte)) : List Byte × Suffixer :=
  let s := { s with chans := sortInts s.chans }
  ((match className with | some n => 0x28#8 :: n | none => []) ++ [0x5b#8] ++
    (if s.chans = [] then [] else 0x55#8 :: s.chans.flatMap CNum.showInt) ++
    (if s.normals then [0x4e#8] else []) ++ (if s.skin then [0x53#8] else []) ++ (if s.morph then [0x4d#8] else []) ++ [0x5d#8] ++
    (if className.isSome then [0x29#8] else []), s)

/-! ## CompositeTex -/

/-- Outcome of a call: a failed `assert` (which does nothing and returns when assertions are off), an index the interface does not have.
(MapsCore.h:6-13, CompositeTex.h:108-135) -/
inductive Res (α : Type)
  | ok (layers : List α)
  | asserted (layers : List α)
  | badIndex
deriving DecidableEq, Repr

/-- `DeleteLayer` (CompositeTex.h:86-103). -/
def deleteLayer {α : Type} (layers : List α) (index : Int) : Res α :=
  if index < 1 ∧ layers.length = 1 then .asserted layers
  else if index ≥ layers.length then .asserted layers
  else if index < 0 then .badIndex else .ok (layers.eraseIdx index.toNat)

/-- The first loop of `Resize` (CompositeTex.h:121-125): `AddLayer` (which appends a layer as new) `n` times. -/
def addLayers {α : Type} (fresh : α) : Nat → List α → List α
  | 0, l => l
  | n + 1, l => addLayers fresh n (l ++ [fresh])

/-- The second loop (CompositeTex.h:128-133): `for (t = 1; t <= numLayers; t++) DeleteLayer(_numLayers - t)`; `todo` rounds are left. -/
def deleteLayers {α : Type} (total : Int) : Nat → Nat → List α → Res α
  | 0, _, l => .ok l
  | todo + 1, t, l =>
    match deleteLayer l (total - t) with
    | .ok l => deleteLayers total todo (t + 1) l
    | .asserted l => deleteLayers total todo (t + 1) l
    | .badIndex => .badIndex

/-- `Resize` (CompositeTex.h:108-135). -/
def resize {α : Type} (fresh : α) (layers : List α) (newSize : Int) : Res α :=
  if newSize < 1 then .asserted layers
  else
    let numLayers := newSize - layers.length
    if numLayers = 0 then .ok layers
    else if numLayers > 0 then .ok (addLayers fresh numLayers.toNat layers)
    else deleteLayers layers.length (-numLayers).toNat 1 layers

/-! ## Parameters -/

/-- Values of enumerators: one more than the one before, unless given. (Enums of PhysicalMaterial.h:8-104, Mix.h:6-21.) -/
def enumerate : Nat → List (String × Option Nat) → List (String × Nat)
  | _, [] => []
  | _, (n, some v) :: l => (n, v) :: enumerate (v + 1) l
  | k, (n, none) :: l => (n, k) :: enumerate (k + 1) l

/-- A class of MAXex: its `Params_e` and its accessors (the names given to ACCFUNC, ACCFUNC_ENUM, ACCFUNC_CAST). (MapsCore.h:6-19) -/
structure Class where
  params : List (String × Option Nat)
  accessors : List String

/-- The parameter an accessor uses: `e##fname` (MapsCore.h:6-13). -/
def Class.idOf (c : Class) (fname : String) : Option Nat := (enumerate 0 c.params).lookup ("e" ++ fname)

/-- A parameter block: `GetValue(id, time, value, valid, index)`, `SetValue(id, time, value, index)`.
(`IParamBlock2` of the SDK, called at MapsCore.h:6-13.) -/
abbrev Block (V : Type) := Nat → Nat → V

/-- `Set` (MapsCore.h:19). -/
def setParam {V : Type} (b : Block V) (id index : Nat) (v : V) : Block V := fun i k => if i = id ∧ k = index then v else b i k
/-- `Get` (MapsCore.h:18). -/
def getParam {V : Type} (b : Block V) (id index : Nat) : V := b id index

/-- `obj.fname(v)` for an object with the given index; `none`: no such enumerator (does not compile). (MapsCore.h:6-13) -/
def Class.set {V : Type} (c : Class) (b : Block V) (index : Nat) (fname : String) (v : V) : Option (Block V) :=
  (c.idOf fname).map (fun id => setParam b id index v)
/-- `obj.fname()`. (MapsCore.h:18-19) -/
def Class.get {V : Type} (c : Class) (b : Block V) (index : Nat) (fname : String) : Option V := (c.idOf fname).map (fun id => getParam b id index)

/-- PhysicalMaterial.h:8-104 and its accessors. -/
def physicalMaterial : Class :=
  ⟨[("eMaterialMode", none), ("eBaseWeight", none), ("eBaseColor", none), ("eReflectivity", none), ("eRoughness", none),
      ("eInvertRoughness", none), ("eMetalness", none), ("eReflectionColor", some 10), ("eDiffRoughness", none),
      ("eBRDFMode", none), ("eBRDFLow", none), ("eBRDFHigh", none), ("eBRDFCurve", none), ("eAnisotropy", some 20),
      ("eAnisotropyAngle", none), ("eAnisotropyMode", none), ("eAnisotropyChannel", none), ("eTransparency", some 30),
      ("eTransparencyColor", none), ("eTransparencyDepth", none), ("eTransparencyRoughness", some 35),
      ("eInvertTransparencyRoughness", none), ("eLockTransparencyRoughness", some 34), ("eIOR", some 33),
      ("eThinWalled", some 37), ("eScattering", some 40), ("eSSSColor", none), ("eSSSDepth", none), ("eSSSScale", none),
      ("eSSSScatterColor", none), ("eEmission", some 50), ("eEmissionColor", none), ("eEmissionLuminance", none),
      ("eEmissionKelvin", some 54), ("eCoating", some 60), ("eCoatingColor", none), ("eCoatingRoughness", none),
      ("eInvertCoatingRoughness", none), ("eCoatingAffectColor", none), ("eCoatingAffectRoughness", none),
      ("eCoatingIOR", none), ("eBaseWeightMap", some 100), ("eBaseColorMap", none), ("eReflectMap", none),
      ("eReflColorMap", none), ("eRoughnessMap", none), ("eMetalnessMap", none), ("eDiffRoughnessMap", none),
      ("eAnisotropyMap", none), ("eAnisoAngleMap", none), ("eTransparencyMap", none), ("eTransColorMap", none),
      ("eTransRoughnessMap", none), ("eIORMap", none), ("eScatteringMap", none), ("eSSSColorMap", none),
      ("sSSSScaleMap", none), ("eEmissionMap", none), ("eEmisionColorMap", none), ("eCoatingMap", none),
      ("eCoatingColorMap", none), ("eCoatingRoughnessMap", none), ("eBumpMap", some 130), ("eCoatingBumpMap", none),
      ("eDisplacementMap", none), ("eCutoutMap", none), ("eBaseWeightMapActive", some 150), ("eBaseColorMapActive", none),
      ("eReflectMapActive", none), ("eReflColorMapActive", none), ("eRoughnessMapActive", none), ("eMetalnessMapActive", none),
      ("eDiffRoughnessMapActive", none), ("eAnisotropyMapActive", none), ("eAnisoAngleMapActive", none),
      ("eTransparencyMapActive", none), ("eTransColorMapActive", none), ("eTransRoughnessMapActive", none),
      ("eIORMapActive", none), ("eScatteringMActiveap", none), ("eSSSColorMapActive", none), ("eSSSScaleMapActive", none),
      ("eEmissionMapActive", none), ("eEmisionColorMapActive", none), ("eCoatingMapActive", none),
      ("eCoatingColorMapActive", none), ("eCoatingRoughnessMapActive", none), ("eBumpMapActive", some 180),
      ("eCoatingBumpMapActive", none), ("eDisplacementMapActive", none), ("eCutoutMapActive", none),
      ("eBumpMapAmmount", some 230), ("eCoatingBumpMapAmmount", none), ("eDisplacementMapAmmount", none)],
   ["MaterialMode", "BaseWeight", "BaseColor", "Reflectivity", "Roughness", "InvertRoughness", "Metalness",
      "ReflectionColor", "DiffRoughness", "BRDFMode", "BRDFLow", "BRDFHigh", "BRDFCurve", "Anisotropy", "AnisotropyAngle",
      "AnisotropyMode", "AnisotropyChannel", "Transparency", "TransparencyColor", "TransparencyDepth", "TransparencyRoughness",
      "InvertTransparencyRoughness", "LockTransparencyRoughness", "IOR", "ThinWalled", "Scattering", "SSSColor", "SSSDepth",
      "SSSScale", "SSSScatterColor", "Emission", "EmissionColor", "EmissionLuminance", "EmissionKelvin", "Coating",
      "CoatingColor", "CoatingRoughness", "InvertCoatingRoughness", "CoatingAffectColor", "CoatingAffectRoughness",
      "CoatingIOR", "BaseWeightMapActive", "BaseColorMapActive", "ReflectMapActive", "ReflColorMapActive",
      "RoughnessMapActive", "MetalnessMapActive", "DiffRoughnessMapActive", "AnisotropyMapActive", "AnisoAngleMapActive",
      "TransparencyMapActive", "TransColorMapActive", "TransRoughnessMapActive", "IORMapActive", "ScatteringMActiveap",
      "SSSColorMapActive", "SSSScaleMapActive", "EmissionMapActive", "EmisionColorMapActive", "CoatingMapActive",
      "CoatingColorMapActive", "CoatingRoughnessMapActive", "BumpMapActive", "CoatingBumpMapActive", "DisplacementMapActive",
      "CutoutMapActive", "BumpMapAmmount", "CoatingBumpMapAmmount", "DisplacementMapAmmount"]⟩

/-- CompositeTex.h:45-55 and its accessors. -/
def compositeLayer : Class :=
  ⟨[("eMapEnabled", some 1), ("eMaskEnabled", some 3), ("eBlendMode", some 5), ("eName", none), ("eDialogOpened", none),
      ("eOpacity", none), ("eMap", none), ("eMask", none)],
   ["MapEnabled", "MaskEnabled", "BlendMode", "Name", "Opacity", "Map", "Mask"]⟩

/-- Mix.h:6-21 and its accessors. -/
def mix : Class :=
  ⟨[("eMixAmmount", none), ("eLower", none), ("eUpper", none), ("eUseCurve", none), ("eColor1", none), ("eColor2", none),
      ("eMap1", none), ("eMap2", none), ("eMask", none), ("eMap1Active", none), ("eMap2Active", none), ("eMaskActive", none),
      ("eOutput", none)],
   ["MixAmmount", "Lower", "Upper", "UseCurve", "Color1", "Color2", "Map1", "Map2", "Mask", "Map1Active", "Map2Active",
      "MaskActive", "Output"]⟩

/-- NormalBump.h:8-20 and its accessors. -/
def normalBump : Class :=
  ⟨[("eNormalAmmount", none), ("eBumpAmmount", none), ("eNormal", none), ("eBump", none), ("eNormalActive", none),
      ("eBumpActive", none), ("eMethod", none), ("eFlipX", none), ("eFlipY", none), ("eSwapXY", none)],
   ["Normal", "Bump", "NormalAmmount", "BumpAmmount", "NormalActive", "BumpActive", "Method", "FlipX", "FlipY", "SwapXY"]⟩

/-- RGBMultiply.h:6-15 and its accessors. -/
def rgbMultiply : Class :=
  ⟨[("eColor1", none), ("eColor2", none), ("eMap1", none), ("eMap2", none), ("eMap1Active", none), ("eMap2Active", none),
      ("eAlphaFrom", none)],
   ["Color1", "Color2", "Map1", "Map2", "Map1Active", "Map2Active", "AlphaFrom"]⟩

/-- VertexColor.h:6-10 and its accessors. -/
def vertexColor : Class :=
  ⟨[("eUVChannel", none), ("eOutputColor", none)],
   ["UVChannel", "OutputColor"]⟩

/-- All classes of MAXex with accessors (PhysicalMaterial.h:8-104, CompositeTex.h:45-55, Mix.h:6-21, NormalBump.h:8-20, RGBMultiply.h:6-15, VertexColor.h:6-10). -/
def classes : List Class := [physicalMaterial, compositeLayer, mix, normalBump, rgbMultiply, vertexColor]

end PreCore.Max

import Verif.Model.Component

/-!
The component classes shipped with the package (v2/perception/*.py) and the column types they use
(v2/column_types.py), as values of `Component.Cls`.
-/

namespace Verif.Component.Shipped

open Verif.Component

/-- Arrow types passed to `create_column`. -/
inductive Arrow
  | int8 | int32 | int64 | float32 | float64 | string | binary | bool
  | list (e : Arrow)
  | fixedList (e : Arrow) (n : Nat)
  deriving DecidableEq, Repr

/-- A field whose type is a dataclass. -/
def nest (name : String) (rep : Bool) (c : Cls Arrow) (rest : Fields Arrow) : Fields Arrow :=
  .nested name rep c.name c.kind c.fields rest

/-- `Vec2s`, v2/column_types.py:34-38. -/
def vec2s : Cls Arrow := ⟨"Vec2s", .plain,
  (.leaf "x" false .float32 (.leaf "y" false .float32 .nil))⟩

/-- `Vec2d`, v2/column_types.py:42-46. -/
def vec2d : Cls Arrow := ⟨"Vec2d", .plain,
  (.leaf "x" false .float64 (.leaf "y" false .float64 .nil))⟩

/-- `Vec3s`, v2/column_types.py:50-55. -/
def vec3s : Cls Arrow := ⟨"Vec3s", .plain,
  (.leaf "x" false .float32 (.leaf "y" false .float32 (.leaf "z" false .float32 .nil)))⟩

/-- `Vec3d`, v2/column_types.py:59-71. -/
def vec3d : Cls Arrow := ⟨"Vec3d", .plain,
  (.leaf "x" false .float64 (.leaf "y" false .float64 (.leaf "z" false .float64 .nil)))⟩

/-- `Vec2dList`, v2/column_types.py:87-91. -/
def vec2dList : Cls Arrow := ⟨"Vec2dList", .plain,
  (.leaf "x" false (.list .float64) (.leaf "y" false (.list .float64) .nil))⟩

/-- `Vec3dList`, v2/column_types.py:104-109. -/
def vec3dList : Cls Arrow := ⟨"Vec3dList", .plain,
  (.leaf "x" false (.list .float64) (.leaf "y" false (.list .float64) (.leaf "z" false (.list .float64) .nil)))⟩

/-- `Transform`, v2/column_types.py:113-116. -/
def transform : Cls Arrow := ⟨"Transform", .plain,
  (.leaf "transform" false (.fixedList .float64 16) .nil)⟩

/-- `Box3d`, v2/column_types.py:120-134. -/
def box3d : Cls Arrow := ⟨"Box3d", .plain,
  (nest "center" false vec3d (nest "size" false vec3d (.leaf "heading" false .float64 .nil)))⟩

/-- `BoxAxisAligned2d`, v2/column_types.py:153-156. -/
def boxAxisAligned2d : Cls Arrow := ⟨"BoxAxisAligned2d", .plain,
  (nest "center" false vec2d (nest "size" false vec2d .nil))⟩

/-- `SegmentLaserKey`, v2/perception/base.py:59-65. -/
def segmentLaserKey : Cls Arrow := ⟨"SegmentLaserKey", .key,
  (.leaf "segment_context_name" false .string (.leaf "laser_name" false .int8 .nil))⟩

/-- `SegmentCameraKey`, v2/perception/base.py:89-96. -/
def segmentCameraKey : Cls Arrow := ⟨"SegmentCameraKey", .key,
  (.leaf "segment_context_name" false .string (.leaf "camera_name" false .int8 .nil))⟩

/-- `FrameKey`, v2/perception/base.py:33-50. -/
def frameKey : Cls Arrow := ⟨"FrameKey", .key,
  (.leaf "segment_context_name" false .string (.leaf "frame_timestamp_micros" false .int64 .nil))⟩

/-- `LaserKey`, v2/perception/base.py:74-80. -/
def laserKey : Cls Arrow := ⟨"LaserKey", .key,
  (.leaf "segment_context_name" false .string (.leaf "frame_timestamp_micros" false .int64 (.leaf "laser_name" false
    .int8 .nil)))⟩

/-- `CameraKey`, v2/perception/base.py:105-112. -/
def cameraKey : Cls Arrow := ⟨"CameraKey", .key,
  (.leaf "segment_context_name" false .string (.leaf "frame_timestamp_micros" false .int64 (.leaf "camera_name" false
    .int8 .nil)))⟩

/-- `LaserLabelKey`, v2/perception/base.py:121-126. -/
def laserLabelKey : Cls Arrow := ⟨"LaserLabelKey", .key,
  (.leaf "segment_context_name" false .string (.leaf "frame_timestamp_micros" false .int64 (.leaf "laser_object_id"
    false .string .nil)))⟩

/-- `CameraLabelKey`, v2/perception/base.py:135-136. -/
def cameraLabelKey : Cls Arrow := ⟨"CameraLabelKey", .key,
  (.leaf "segment_context_name" false .string (.leaf "frame_timestamp_micros" false .int64 (.leaf "camera_name" false
    .int8 (.leaf "camera_object_id" false .string .nil))))⟩

/-- `ObjectAssetKey`, v2/perception/base.py:145-146. -/
def objectAssetKey : Cls Arrow := ⟨"ObjectAssetKey", .key,
  (.leaf "segment_context_name" false .string (.leaf "frame_timestamp_micros" false .int64 (.leaf "laser_object_id"
    false .string (.leaf "camera_name" false .int8 .nil))))⟩

/-- `ProjectedLaserLabelKey`, v2/perception/box.py:117 (fields of the bases in reverse MRO). -/
def projectedLaserLabelKey : Cls Arrow := ⟨"ProjectedLaserLabelKey", .key,
  (.leaf "segment_context_name" false .string (.leaf "frame_timestamp_micros" false .int64 (.leaf "camera_name" false
    .int8 (.leaf "laser_object_id" false .string .nil))))⟩

/-- `CameraToLiDARBoxAssociationKey`, v2/perception/box.py:168-170. -/
def cameraToLiDARBoxAssociationKey : Cls Arrow := ⟨"CameraToLiDARBoxAssociationKey", .key,
  (.leaf "segment_context_name" false .string (.leaf "frame_timestamp_micros" false .int64 (.leaf "camera_name" false
    .int8 (.leaf "camera_object_id" false .string (.leaf "laser_object_id" false .string .nil)))))⟩

/-- `DifficultyLevel`, v2/perception/box.py:48-51. -/
def difficultyLevel : Cls Arrow := ⟨"DifficultyLevel", .plain,
  (.leaf "detection" false .int8 (.leaf "tracking" false .int8 .nil))⟩

/-- `LiDARBoxComponent`, v2/perception/box.py:55-77. -/
def liDARBox : Cls Arrow := ⟨"LiDARBoxComponent", .component,
  (nest "key" false laserLabelKey (nest "box" false box3d (.leaf "type" false .int8 (.leaf "num_lidar_points_in_box"
    false .int64 (.leaf "num_top_lidar_points_in_box" false .int64 (nest "speed" false vec3d (nest "acceleration"
    false vec3d (nest "difficulty_level" false difficultyLevel .nil))))))))⟩

/-- `LiDARCameraSyncedBoxComponent`, v2/perception/box.py:81-113. -/
def liDARCameraSyncedBox : Cls Arrow := ⟨"LiDARCameraSyncedBoxComponent", .component,
  (nest "key" false laserLabelKey (.leaf "most_visible_camera_name" false .int8 (nest "camera_synced_box" false box3d
    .nil)))⟩

/-- `ProjectedLiDARBoxComponent`, v2/perception/box.py:131-148. -/
def projectedLiDARBox : Cls Arrow := ⟨"ProjectedLiDARBoxComponent", .component,
  (nest "key" false projectedLaserLabelKey (nest "box" false boxAxisAligned2d (.leaf "type" false .int8 .nil)))⟩

/-- `CameraBoxComponent`, v2/perception/box.py:152-164. -/
def cameraBox : Cls Arrow := ⟨"CameraBoxComponent", .component,
  (nest "key" false cameraLabelKey (nest "box" false boxAxisAligned2d (.leaf "type" false .int8 (nest
    "difficulty_level" false difficultyLevel .nil))))⟩

/-- `CameraToLiDARBoxAssociationComponent`, v2/perception/box.py:174-180. -/
def cameraToLiDARBoxAssociation : Cls Arrow := ⟨"CameraToLiDARBoxAssociationComponent", .component,
  (nest "key" false cameraToLiDARBoxAssociationKey .nil)⟩

/-- `Velocity`, v2/perception/camera_image.py:31-42. -/
def velocity : Cls Arrow := ⟨"Velocity", .plain,
  (nest "linear_velocity" false vec3s (nest "angular_velocity" false vec3d .nil))⟩

/-- `RollingShutterParams`, v2/perception/camera_image.py:46-72. -/
def rollingShutterParams : Cls Arrow := ⟨"RollingShutterParams", .plain,
  (.leaf "shutter" false .float64 (.leaf "camera_trigger_time" false .float64 (.leaf "camera_readout_done_time" false
    .float64 .nil)))⟩

/-- `CameraImageComponent`, v2/perception/camera_image.py:76-101. -/
def cameraImage : Cls Arrow := ⟨"CameraImageComponent", .component,
  (nest "key" false cameraKey (.leaf "image" false .binary (nest "pose" false transform (nest "velocity" false
    velocity (.leaf "pose_timestamp" false .float64 (nest "rolling_shutter_params" false rollingShutterParams
    .nil))))))⟩

/-- `Intrinsic`, v2/perception/context.py:32-53. -/
def intrinsic : Cls Arrow := ⟨"Intrinsic", .plain,
  (.leaf "f_u" false .float64 (.leaf "f_v" false .float64 (.leaf "c_u" false .float64 (.leaf "c_v" false .float64
    (.leaf "k1" false .float64 (.leaf "k2" false .float64 (.leaf "p1" false .float64 (.leaf "p2" false .float64 (.leaf
    "k3" false .float64 .nil)))))))))⟩

/-- `CameraCalibrationComponent`, v2/perception/context.py:66-81. -/
def cameraCalibration : Cls Arrow := ⟨"CameraCalibrationComponent", .component,
  (nest "key" false segmentCameraKey (nest "intrinsic" false intrinsic (nest "extrinsic" false transform (.leaf
    "width" false .int32 (.leaf "height" false .int32 (.leaf "rolling_shutter_direction" false .int8 .nil))))))⟩

/-- `BeamInclination`, v2/perception/context.py:85-100. -/
def beamInclination : Cls Arrow := ⟨"BeamInclination", .plain,
  (.leaf "min" false .float64 (.leaf "max" false .float64 (.leaf "values" false (.list .float64) .nil)))⟩

/-- `LiDARCalibrationComponent`, v2/perception/context.py:104-113. -/
def liDARCalibration : Cls Arrow := ⟨"LiDARCalibrationComponent", .component,
  (nest "key" false segmentLaserKey (nest "extrinsic" false transform (nest "beam_inclination" false beamInclination
    .nil)))⟩

/-- `ObjectCounts`, v2/perception/context.py:117-125. -/
def objectCounts : Cls Arrow := ⟨"ObjectCounts", .plain,
  (.leaf "types" false (.list .int8) (.leaf "counts" false (.list .int32) .nil))⟩

/-- `StatsComponent`, v2/perception/context.py:129-143. -/
def stats : Cls Arrow := ⟨"StatsComponent", .component,
  (nest "key" false frameKey (.leaf "time_of_day" false .string (.leaf "location" false .string (.leaf "weather" false
    .string (nest "lidar_object_counts" false objectCounts (nest "camera_object_counts" false objectCounts .nil))))))⟩

/-- `Visibility`, v2/perception/keypoints.py:32-41. -/
def visibility : Cls Arrow := ⟨"Visibility", .plain,
  (.leaf "is_occluded" false (.list .bool) .nil)⟩

/-- `Keypoint2d`, v2/perception/keypoints.py:45-54. -/
def keypoint2d : Cls Arrow := ⟨"Keypoint2d", .plain,
  (nest "location_px" false vec2dList (nest "visibility" false visibility .nil))⟩

/-- `Keypoint3d`, v2/perception/keypoints.py:58-71. -/
def keypoint3d : Cls Arrow := ⟨"Keypoint3d", .plain,
  (nest "location_m" false vec3dList (nest "visibility" false visibility .nil))⟩

/-- `CameraHumanKeypoints`, v2/perception/keypoints.py:134-151. -/
def cameraHumanKeypointsItem : Cls Arrow := ⟨"CameraHumanKeypoints", .plain,
  (.leaf "type" false (.list .int8) (nest "keypoint_2d" false keypoint2d (nest "keypoint_3d" false keypoint3d .nil)))⟩

/-- `CameraHumanKeypointsComponent`, v2/perception/keypoints.py:155-158. -/
def cameraHumanKeypoints : Cls Arrow := ⟨"CameraHumanKeypointsComponent", .component,
  (nest "key" false cameraLabelKey (nest "camera_keypoints" true cameraHumanKeypointsItem .nil))⟩

/-- `LiDARHumanKeypoints`, v2/perception/keypoints.py:162-173. -/
def liDARHumanKeypointsItem : Cls Arrow := ⟨"LiDARHumanKeypoints", .plain,
  (.leaf "type" false (.list .int8) (nest "keypoint_3d" false keypoint3d .nil))⟩

/-- `LiDARHumanKeypointsComponent`, v2/perception/keypoints.py:177-180. -/
def liDARHumanKeypoints : Cls Arrow := ⟨"LiDARHumanKeypointsComponent", .component,
  (nest "key" false laserLabelKey (nest "lidar_keypoints" true liDARHumanKeypointsItem .nil))⟩

/-- `RangeImage`, v2/perception/lidar.py:32-47. -/
def rangeImage : Cls Arrow := ⟨"RangeImage", .plain,
  (.leaf "values" false (.list .float32) (.leaf "shape" false (.fixedList .int32 3) .nil))⟩

/-- `LiDARComponent`, v2/perception/lidar.py:55-58. -/
def liDAR : Cls Arrow := ⟨"LiDARComponent", .component,
  (nest "key" false laserKey (nest "range_image_return1" false rangeImage (nest "range_image_return2" false rangeImage
    .nil)))⟩

/-- `CameraProjectionRangeImage`, v2/perception/lidar.py:66-91. -/
def cameraProjectionRangeImage : Cls Arrow := ⟨"CameraProjectionRangeImage", .plain,
  (.leaf "values" false (.list .float32) (.leaf "shape" false (.fixedList .int32 3) .nil))⟩

/-- `LiDARCameraProjectionComponent`, v2/perception/lidar.py:99-102. -/
def liDARCameraProjection : Cls Arrow := ⟨"LiDARCameraProjectionComponent", .component,
  (nest "key" false laserKey (nest "range_image_return1" false cameraProjectionRangeImage (nest "range_image_return2"
    false cameraProjectionRangeImage .nil)))⟩

/-- `PoseRangeImage`, v2/perception/lidar.py:110-131. -/
def poseRangeImage : Cls Arrow := ⟨"PoseRangeImage", .plain,
  (.leaf "values" false (.list .float32) (.leaf "shape" false (.fixedList .int32 3) .nil))⟩

/-- `LiDARPoseComponent`, v2/perception/lidar.py:139-146. -/
def liDARPose : Cls Arrow := ⟨"LiDARPoseComponent", .component,
  (nest "key" false laserKey (nest "range_image_return1" false poseRangeImage .nil))⟩

/-- `FlowRangeImage`, v2/perception/lidar.py:150-173. -/
def flowRangeImage : Cls Arrow := ⟨"FlowRangeImage", .plain,
  (.leaf "values" false (.list .float32) (.leaf "shape" false (.fixedList .int32 3) .nil))⟩

/-- `LiDARFlowComponent`, v2/perception/lidar.py:181-184. -/
def liDARFlow : Cls Arrow := ⟨"LiDARFlowComponent", .component,
  (nest "key" false laserKey (nest "range_image_return1" false flowRangeImage (nest "range_image_return2" false
    flowRangeImage .nil)))⟩

/-- `LidarDistanceImage`, v2/perception/object_asset.py:47-62. -/
def lidarDistanceImage : Cls Arrow := ⟨"LidarDistanceImage", .plain,
  (.leaf "values" false (.list .float32) (.leaf "shape" false (.fixedList .int32 2) .nil))⟩

/-- `CameraRayImage`, v2/perception/object_asset.py:66-80. -/
def cameraRayImage : Cls Arrow := ⟨"CameraRayImage", .plain,
  (.leaf "values" false (.list .float32) (.leaf "shape" false (.fixedList .int32 3) .nil))⟩

/-- `PointCoordinates`, v2/perception/object_asset.py:84-96. -/
def pointCoordinates : Cls Arrow := ⟨"PointCoordinates", .plain,
  (.leaf "values" false (.list .float32) (.leaf "shape" false (.fixedList .int32 2) .nil))⟩

/-- `ObjectAssetLiDARSensorComponent`, v2/perception/object_asset.py:100-111. -/
def objectAssetLiDARSensor : Cls Arrow := ⟨"ObjectAssetLiDARSensorComponent", .component,
  (nest "key" false laserLabelKey (nest "points_xyz" false pointCoordinates .nil))⟩

/-- `ObjectAssetCameraSensorComponent`, v2/perception/object_asset.py:115-143. -/
def objectAssetCameraSensor : Cls Arrow := ⟨"ObjectAssetCameraSensorComponent", .component,
  (nest "key" false objectAssetKey (nest "camera_region" false boxAxisAligned2d (.leaf "rgb_image" false .binary (nest
    "proj_points_dist" false lidarDistanceImage (.leaf "proj_points_mask" false .binary .nil)))))⟩

/-- `ObjectAssetRefinedPoseComponent`, v2/perception/object_asset.py:155-166. -/
def objectAssetRefinedPose : Cls Arrow := ⟨"ObjectAssetRefinedPoseComponent", .component,
  (nest "key" false laserLabelKey (nest "box_from_vehicle" false transform .nil))⟩

/-- `ObjectAssetAutoLabelComponent`, v2/perception/object_asset.py:170-193. -/
def objectAssetAutoLabel : Cls Arrow := ⟨"ObjectAssetAutoLabelComponent", .component,
  (nest "key" false objectAssetKey (.leaf "semantic_mask" false .binary (.leaf "instance_mask" false .binary (.leaf
    "object_mask" false .binary .nil))))⟩

/-- `ObjectAssetRayComponent`, v2/perception/object_asset.py:209-228. -/
def objectAssetRay : Cls Arrow := ⟨"ObjectAssetRayComponent", .component,
  (nest "key" false objectAssetKey (nest "ray_origin" false cameraRayImage (nest "ray_direction" false cameraRayImage
    .nil)))⟩

/-- `ObjectAssetRayCompressedComponent`, v2/perception/object_asset.py:232-256. -/
def objectAssetRayCompressed : Cls Arrow := ⟨"ObjectAssetRayCompressedComponent", .component,
  (nest "key" false objectAssetKey (.leaf "reference" false (.list .float32) (.leaf "quantized_values" false (.list
    .int32) (.leaf "shape" false (.list .int32) .nil))))⟩

/-- `VehiclePoseComponent`, v2/perception/pose.py:24-27. -/
def vehiclePose : Cls Arrow := ⟨"VehiclePoseComponent", .component,
  (nest "key" false frameKey (nest "world_from_vehicle" false transform .nil))⟩

/-- `InstanceIdToGlobalIdMapping`, v2/perception/segmentation.py:31-51. -/
def instanceIdToGlobalIdMapping : Cls Arrow := ⟨"InstanceIdToGlobalIdMapping", .plain,
  (.leaf "local_instance_ids" false (.list .int32) (.leaf "global_instance_ids" false (.list .int32) (.leaf
    "is_tracked" false (.list .bool) .nil)))⟩

/-- `CameraSegmentationLabelComponent`, v2/perception/segmentation.py:55-92. -/
def cameraSegmentationLabel : Cls Arrow := ⟨"CameraSegmentationLabelComponent", .component,
  (nest "key" false cameraKey (.leaf "panoptic_label_divisor" false .int32 (.leaf "panoptic_label" false .binary (nest
    "instance_id_to_global_id_mapping" false instanceIdToGlobalIdMapping (.leaf "sequence_id" false .string (.leaf
    "num_cameras_covered" false .binary .nil))))))⟩

/-- `LiDARSegmentationRangeImage`, v2/perception/segmentation.py:96-108. -/
def liDARSegmentationRangeImage : Cls Arrow := ⟨"LiDARSegmentationRangeImage", .plain,
  (.leaf "values" false (.list .int32) (.leaf "shape" false (.fixedList .int32 3) .nil))⟩

/-- `LiDARSegmentationLabelComponent`, v2/perception/segmentation.py:116-119. -/
def liDARSegmentationLabel : Cls Arrow := ⟨"LiDARSegmentationLabelComponent", .component,
  (nest "key" false laserKey (nest "range_image_return1" false liDARSegmentationRangeImage (nest "range_image_return2"
    false liDARSegmentationRangeImage .nil)))⟩
/-- Every component class of v2/perception. -/
def all : List (Cls Arrow) :=
  [liDARBox, liDARCameraSyncedBox, projectedLiDARBox, cameraBox, cameraToLiDARBoxAssociation, cameraImage,
    cameraCalibration, liDARCalibration, stats, cameraHumanKeypoints, liDARHumanKeypoints, liDAR,
    liDARCameraProjection, liDARPose, liDARFlow, objectAssetLiDARSensor, objectAssetCameraSensor,
    objectAssetRefinedPose, objectAssetAutoLabel, objectAssetRay, objectAssetRayCompressed, vehiclePose,
    cameraSegmentationLabel, liDARSegmentationLabel]

end Verif.Component.Shipped

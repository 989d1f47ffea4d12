.lake/
__pycache__/
lake-manifest.json

.lake/
**/.lake/
build/
__pycache__/
